import Verif.Spec.Path
import Verif.Props.C39

/-! C58: the point-to-point preparation computes the published path parameters. -/

namespace Itm.Props
open Itm Itm.Spec

/-- The path described by a dictionary. -/
def pathOf (p : PropSt ℝ) (n : ℕ) : Path :=
  { n := n, ξ := p.pfl.xi, κ := p.gme, hg₀ := p.hg.x0, hg₁ := p.hg.x1, z := fun j => p.pfl.z.getD j 0 }

/-- The parameters written to a dictionary. -/
def geometryOf (q : PropSt ℝ) : Geometry :=
  { he₀ := q.he.x0, he₁ := q.he.x1, dl₀ := q.dl.x0, dl₁ := q.dl.x1, the₀ := q.the.x0, the₁ := q.the.x1, dh := q.dh }

/-- `lineAt` is the fitted line. -/
theorem lineAt_fit {p : PropSt ℝ} {n : ℕ} {x y : ℝ} (hx : 0 < p.pfl.xi) (hxy : x < y) : ∃ c s, (pathOf p n).FitOver x y c s ∧
    ∀ t, lineAt p.pfl x y t = c + s * t := by
  have hab : ⌊x / p.pfl.xi⌋ < ⌈y / p.pfl.xi⌉ := by
    have a := Int.floor_le (x / p.pfl.xi)
    have b := Int.le_ceil (y / p.pfl.xi)
    have c : x / p.pfl.xi < y / p.pfl.xi := div_lt_div_of_pos_right hxy hx
    have : ((⌊x / p.pfl.xi⌋ : ℤ) : ℝ) < ((⌈y / p.pfl.xi⌉ : ℤ) : ℝ) := by linarith
    exact_mod_cast this
  unfold Path.FitOver lineAt
  change ∃ c s, BestLine p.pfl.h ⌊x / p.pfl.xi⌋.toNat (⌈y / p.pfl.xi⌉ - ⌊x / p.pfl.xi⌋).toNat c s ∧ _
  have hm : 0 < (⌈y / p.pfl.xi⌉ - ⌊x / p.pfl.xi⌋).toNat := by omega
  generalize ⌊x / p.pfl.xi⌋.toNat = a at *
  generalize (⌈y / p.pfl.xi⌉ - ⌊x / p.pfl.xi⌋).toNat = m at *
  refine ⟨_, _, fit_best (by omega), fun t => ?_⟩
  unfold fitAt
  ring

theorem prep_geometry {p q : PropSt ℝ} {n : ℕ} (hn : 1 ≤ n) (hnp : p.pfl.np = n) (hx : 0 < p.pfl.xi) (hl : n < p.pfl.z.length)
    (hg0 : 0 < p.hg.x0) (hg1 : 0 < p.hg.x1) (hκ : 0 < p.gme) (h : qlrpflPrep p = .ok q) {zr : ℝ}
    (hr : ClearPath p n → zr = p.pfl.z.getD (n - 1) 0) :
    (pathOf p n).IsGeometry zr (geometryOf q) := by
  obtain ⟨q', e, hq⟩ := qlrpflPrep_ok hn hnp hx hl hg0 hg1 hκ
  rw [h, ok_inj] at e
  subst e
  obtain ⟨the, dl, dh, x1, x2, hz, hx1, hx2, x10, x12, x2n, edh, hdh, qdh, hc⟩ := hq.data
  have hs := hz_sum hn hnp hx hl hz
  have hn' : (0 : ℝ) < n := by exact_mod_cast hn
  have hD : 0 < n * p.pfl.xi := by positivity
  obtain ⟨ta, tb, da, db, hz', H⟩ := C35_horizons (κ := p.gme) (ha := p.hg.x0) (hb := p.hg.x1) hn hnp hx hl
  have hz'' : hzns p.pfl (n * p.pfl.xi) p.hg p.gme = .ok (⟨ta, tb⟩, ⟨da, db⟩) := hz'
  rw [hz, ok_inj, Prod.mk.injEq] at hz''
  obtain ⟨rfl, rfl⟩ := hz''
  dsimp only at *
  obtain ⟨v, ev, i1, i2⟩ := C37_value (p := p.pfl) (x1 := x1) (x2 := x2) hx (by omega) x10.le (by rw [hnp]; push_cast; exact x2n.le)
  rw [edh, ok_inj] at ev
  subst ev
  rw [← qdh] at i1 i2
  refine ⟨ta, tb, da, db, x1, x2, H, hx1, hx2, ⟨i1, i2⟩, fun hcl => ?_, fun hcl => ?_⟩
  · have hcl' : ClearPath p n := hcl
    rw [hr hcl']
    rw [clear_iff hn hx] at hcl'
    rcases hs with ⟨hdl, -⟩ | ⟨-, -, -, j, j1, j2, j3⟩
    · rcases hc with ⟨-, he0, he1, f, e0, e1, ef, h1, h2, h3⟩ | ⟨hne, -⟩
      · obtain ⟨c, s, hf, hv⟩ := lineAt_fit (p := p) (n := n) hx x12
        rw [hv] at e0 e1
        have e0' : p.hg.x0 + max (p.pfl.z.getD 0 0 - c) 0 = he0 := by rw [e0, mul_zero, add_zero]; rfl
        have e1' : p.hg.x1 + max (p.pfl.z.getD (n - 1) 0 - (c + s * n)) 0 = he1 := by rw [e1]; rfl
        refine ⟨c, s, hf, ?_⟩
        have ef' : (pathOf p n).raise q.dh he0 he1 = f := by rw [ef, qdh]; rfl
        have w0 : (pathOf p n).hg₀ + max ((pathOf p n).z 0 - c) 0 = he0 := e0'
        have w1 : (pathOf p n).hg₁ + max (p.pfl.z.getD (n - 1) 0 - (c + s * ((pathOf p n).n : ℝ))) 0 = he1 := e1'
        have wd : (geometryOf q).dh = q.dh := rfl
        dsimp only
        rw [w0, w1, wd, ef']
        rw [← qdh] at h2 h3
        refine ⟨?_, ?_, ?_, ?_, ?_, ?_⟩
        · show q.he.x0 = _; rw [h1]
        · show q.he.x1 = _; rw [h1]
        · show q.dl.x0 = _; rw [h2]; rfl
        · show q.dl.x1 = _; rw [h2]; rfl
        · show q.the.x0 = _; rw [h3]; rfl
        · show q.the.x1 = _; rw [h3]; rfl
      · exact absurd hdl hne
    · exact absurd (hcl' j j1 j2) (not_le.2 j3)
  · have hcl' : ¬ ClearPath p n := hcl
    rw [clear_iff hn hx] at hcl'
    rcases hs with ⟨hdl, hall⟩ | ⟨d0, d1, hsum, -⟩
    · exact absurd hall hcl'
    rcases hc with ⟨hdl, -⟩ | ⟨-, h1, h2, h3⟩
    · exfalso
      rw [Pair.mk.injEq] at hdl
      rw [hdl.1, hdl.2] at hsum; linarith
    have m0 := min_le_right (15 * p.hg.x0) (0.1 * da)
    have m1 := min_le_right (15 * p.hg.x1) (0.1 * db)
    have lt0 : x1 < 0.9 * da := by
      rw [hx1]; generalize min (15 * p.hg.x0) (0.1 * da) = m at *; norm_num at m0 ⊢; linarith
    have lt1 : n * p.pfl.xi - 0.9 * db < x2 := by
      rw [hx2]; generalize min (15 * p.hg.x1) (0.1 * db) = m at *; norm_num at m1 ⊢; linarith
    obtain ⟨c, s, hf, hv⟩ := lineAt_fit (p := p) (n := n) hx lt0
    obtain ⟨c', s', hf', hv'⟩ := lineAt_fit (p := p) (n := n) hx lt1
    rw [hv, hv'] at h3
    refine ⟨⟨c, s, hf, ?_⟩, ⟨c', s', hf', ?_⟩, ?_, ?_, ?_, ?_⟩
    · show q.he.x0 = _; rw [h3, mul_zero, add_zero]; rfl
    · show q.he.x1 = _; rw [h3]; rfl
    · show q.dl.x0 = _; rw [h1]
    · show q.dl.x1 = _; rw [h1]
    · show q.the.x0 = _; rw [h2]
    · show q.the.x1 = _; rw [h2]

/-- **C58** On obstructed paths `qlrpfl` hands `lrprop` the published path parameters. -/
theorem C58_obstructed {p q : PropSt ℝ} {n : ℕ} (hn : 1 ≤ n) (hnp : p.pfl.np = n) (hx : 0 < p.pfl.xi) (hl : n < p.pfl.z.length)
    (hg0 : 0 < p.hg.x0) (hg1 : 0 < p.hg.x1) (hκ : 0 < p.gme) (h : qlrpflPrep p = .ok q) (hobs : ¬ (pathOf p n).Clear) :
    (pathOf p n).IsGeometry (p.pfl.z.getD n 0) (geometryOf q) :=
  prep_geometry hn hnp hx hl hg0 hg1 hκ h (fun hc => absurd hc hobs)

/-- **C58** (what holds) On clear paths it hands over the published parameters if the last two profile points have one height.
Full statement: on every clear path; false, because the last but one point is taken for the receiver's ground (`C40_refuted`). -/
theorem C58_clear_partial {p q : PropSt ℝ} {n : ℕ} (hn : 1 ≤ n) (hnp : p.pfl.np = n) (hx : 0 < p.pfl.xi) (hl : n < p.pfl.z.length)
    (hg0 : 0 < p.hg.x0) (hg1 : 0 < p.hg.x1) (hκ : 0 < p.gme) (h : qlrpflPrep p = .ok q)
    (hend : p.pfl.z.getD n 0 = p.pfl.z.getD (n - 1) 0) :
    (pathOf p n).IsGeometry (p.pfl.z.getD n 0) (geometryOf q) :=
  prep_geometry hn hnp hx hl hg0 hg1 hκ h (fun _ => hend)

/-- **C58** On every clear path it hands over the published parameters of a link whose receiver stands at the height of the last but
one profile point. -/
theorem C58_clear_shifted {p q : PropSt ℝ} {n : ℕ} (hn : 1 ≤ n) (hnp : p.pfl.np = n) (hx : 0 < p.pfl.xi) (hl : n < p.pfl.z.length)
    (hg0 : 0 < p.hg.x0) (hg1 : 0 < p.hg.x1) (hκ : 0 < p.gme) (h : qlrpflPrep p = .ok q) :
    (pathOf p n).IsGeometry (p.pfl.z.getD (n - 1) 0) (geometryOf q) :=
  prep_geometry hn hnp hx hl hg0 hg1 hκ h (fun _ => rfl)

/-- **C58** The specification determines the parameters. -/
theorem C58_determined {P : Path} {zr : ℝ} {G G' : Geometry} (hn : 1 ≤ P.n) (hx : 0 < P.ξ) (h : P.IsGeometry zr G)
    (h' : P.IsGeometry zr G') : G' = G := by
  obtain ⟨t0, t1, d0, d1, x, y, ⟨H0, H1⟩, ex, ey, ⟨r1, r2⟩, c1, c2⟩ := h
  obtain ⟨t0', t1', d0', d1', x', y', ⟨H0', H1'⟩, ex', ey', ⟨r1', r2'⟩, c1', c2'⟩ := h'
  obtain ⟨rfl, rfl⟩ := C35_determined H0 H0'
  obtain ⟨rfl, rfl⟩ := C35_determined H1 H1'
  rw [← ex] at ex'
  rw [← ey] at ey'
  subst ex' ey'
  have hn' : (0 : ℝ) < P.n := by exact_mod_cast hn
  have hD : 0 < P.len := mul_pos hn' hx
  have b0 : 0 < d0' ∧ d0' ≤ P.len := by
    rcases H0.attained with ⟨-, e⟩ | ⟨j, j1, j2, -, -, e, -⟩
    · rw [e]; exact ⟨hD, le_rfl⟩
    · rw [e]
      have : (0 : ℝ) < j := by exact_mod_cast j1
      have : (j : ℝ) ≤ P.n := by exact_mod_cast (by omega : j ≤ P.n)
      exact ⟨by positivity, mul_le_mul_of_nonneg_right this hx.le⟩
  have b1 : 0 < d1' ∧ d1' ≤ P.len := by
    rcases H1.attained with ⟨-, e⟩ | ⟨j, j1, j2, -, -, e, -⟩
    · rw [e]; exact ⟨hD, le_rfl⟩
    · rw [e]
      have : (1 : ℝ) ≤ j := by exact_mod_cast j1
      have : (j : ℝ) + 1 ≤ P.n := by exact_mod_cast (by omega : j + 1 ≤ P.n)
      exact ⟨mul_pos (by linarith) hx, mul_le_mul_of_nonneg_right (by linarith) hx.le⟩
  have m0 := min_le_right (15 * P.hg₀) (0.1 * d0')
  have m1 := min_le_right (15 * P.hg₁) (0.1 * d1')
  rw [← ex] at m0
  have m1' : P.len - 0.1 * d1' ≤ y' := by rw [ey]; linarith
  norm_num at m0 m1'
  have uniq : ∀ {u v c s c' s' : ℝ}, u < v → P.FitOver u v c s → P.FitOver u v c' s' → c = c' ∧ s = s' := by
    intro u v c s c' s' huv f f'
    refine C33_unique ?_ f f'
    have a := Int.floor_le (u / P.ξ)
    have b := Int.le_ceil (v / P.ξ)
    have c : u / P.ξ < v / P.ξ := div_lt_div_of_pos_right huv hx
    have : ((⌊u / P.ξ⌋ : ℤ) : ℝ) < ((⌈v / P.ξ⌉ : ℤ) : ℝ) := by linarith
    have : ⌊u / P.ξ⌋ < ⌈v / P.ξ⌉ := by exact_mod_cast this
    omega
  obtain ⟨a1, a2, a3, a4, a5, a6, dh⟩ := G
  obtain ⟨a1', a2', a3', a4', a5', a6', dh'⟩ := G'
  dsimp only at *
  have edh : dh' = dh := by
    by_cases c : 2 ≤ y' / P.ξ - x' / P.ξ
    · exact C37_determined (r1' c) (r1 c)
    · rw [r2 (not_le.1 c), r2' (not_le.1 c)]
  subst edh
  by_cases c : P.Clear
  · obtain ⟨u, v, f, g1, g2, g3, g4, g5, g6⟩ := c1 c
    obtain ⟨u', v', f', g1', g2', g3', g4', g5', g6'⟩ := c1' c
    obtain ⟨rfl, rfl⟩ := uniq (by linarith) f f'
    dsimp only at *
    rw [g1, g2, g3, g4, g5, g6, g1', g2', g3', g4', g5', g6']
  · obtain ⟨⟨u, v, f, g1⟩, ⟨w, k, e, g2⟩, g3, g4, g5, g6⟩ := c2 c
    obtain ⟨⟨u', v', f', g1'⟩, ⟨w', k', e', g2'⟩, g3', g4', g5', g6'⟩ := c2' c
    obtain ⟨rfl, rfl⟩ := uniq (by norm_num; linarith) f f'
    obtain ⟨rfl, rfl⟩ := uniq (by norm_num; linarith) e e'
    dsimp only at *
    rw [g1, g2, g3, g4, g5, g6, g1', g2', g3', g4', g5', g6']

/-- Non-vacuity: a path with a ridge, and a clear one with level ground at the receiver. -/
example : (∃ q, qlrpflPrep (pathState [0, 50, 0]) = .ok q ∧
      (pathOf (pathState [0, 50, 0]) 2).IsGeometry 0 (geometryOf q)) ∧
    ∃ q, qlrpflPrep (pathState [1, 0, 0]) = .ok q ∧ (pathOf (pathState [1, 0, 0]) 2).IsGeometry 0 (geometryOf q) := by
  have hκ : ∀ z, 0 < (pathState z).gme := by intro z; simp [pathState, blank, smoothIn, tangentIn]; norm_num
  have hk : ∀ z, (pathState z).gme = 1.25e-7 := by intro z; rfl
  constructor
  · obtain ⟨q, e, -⟩ := C39_total (p := pathState [0, 50, 0]) (n := 2) (by norm_num) rfl (by norm_num [pathState]) (by simp [pathState])
      (by norm_num [pathState]) (by norm_num [pathState]) (hκ _)
    refine ⟨q, e, C58_obstructed (n := 2) (by norm_num) rfl (by norm_num [pathState]) (by simp [pathState])
      (by norm_num [pathState]) (by norm_num [pathState]) (hκ _) e ?_⟩
    intro hc
    have : ClearPath (pathState [0, 50, 0]) 2 := hc
    have := this 1 le_rfl (by norm_num)
    rw [hk] at this
    norm_num [pathState] at this
  · obtain ⟨q, e, -⟩ := C39_total (p := pathState [1, 0, 0]) (n := 2) (by norm_num) rfl (by norm_num [pathState]) (by simp [pathState])
      (by norm_num [pathState]) (by norm_num [pathState]) (hκ _)
    exact ⟨q, e, C58_clear_partial (n := 2) (by norm_num) rfl (by norm_num [pathState]) (by simp [pathState])
      (by norm_num [pathState]) (by norm_num [pathState]) (hκ _) e (by simp [pathState])⟩

end Itm.Props
