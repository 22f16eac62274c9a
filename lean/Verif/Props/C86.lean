import Verif.Lemmas.FitStable
import Verif.Props.C78
import Verif.Props.C33
import Verif.Props.C58

/-! C86: what errors of the heights do to the fitted line and to the terrain irregularity. -/

namespace Itm.Props
open Itm Spec

/-- **C86** (fitted line) If no height is off by more than `δ`, the end of the fitted line at sample `t` – the code asks for the first and the
last sample of the profile – moves by at most `δ √(1 + 12 r²)`, where `r` is the distance of `t` from the middle of the window in lengths of the
window; at an end inside the window by at most `2δ`. -/
theorem C86_fit {p q : Pfl ℝ} {x1 x2 δ z0 zn z0' zn' : ℝ} {a b n : ℕ} (hx : 0 < p.xi) (hnp : p.np = n) (hl : n < p.z.length) (hnq : q.np = n)
    (hxq : q.xi = p.xi) (hlq : n < q.z.length) (h1 : 0 ≤ x1) (h2 : x2 ≤ n * p.xi) (ha : ⌊x1 / p.xi⌋ = a) (hb : ⌈x2 / p.xi⌉ = b) (hab : a < b)
    (hz : ∀ j, j ≤ n → |q.z.getD j 0 - p.z.getD j 0| ≤ δ) (h : zlsq1 p x1 x2 = .ok (z0, zn)) (h' : zlsq1 q x1 x2 = .ok (z0', zn')) :
    ((z0' - z0) ^ 2 ≤ δ ^ 2 * (1 + 12 * ((((a : ℝ) + b) / 2) / (b - a)) ^ 2) ∧
      (zn' - zn) ^ 2 ≤ δ ^ 2 * (1 + 12 * ((n - ((a : ℝ) + b) / 2) / (b - a)) ^ 2)) ∧
    ((a = 0 → |z0' - z0| ≤ 2 * δ) ∧ (b = n → |zn' - zn| ≤ 2 * δ)) := by
  obtain ⟨c, s, e, hB⟩ := C33_least_squares hx (by omega) h1 (by rw [hnp]; exact_mod_cast h2) ha hb hab
  obtain ⟨c', s', e', hB'⟩ := C33_least_squares (p := q) (x1 := x1) (x2 := x2) (by rw [hxq]; exact hx) (by omega) h1
    (by rw [hnq, hxq]; exact_mod_cast h2) (by rw [hxq]; exact ha) (by rw [hxq]; exact hb) hab
  rw [h, ok_inj, Prod.mk.injEq] at e
  rw [h', ok_inj, Prod.mk.injEq] at e'
  obtain ⟨rfl, rfl⟩ := e
  obtain ⟨rfl, rfl⟩ := e'
  obtain ⟨m, hm⟩ : ∃ m, m = b - a := ⟨_, rfl⟩
  have hm0 : 0 < m := by omega
  have hbn : b ≤ n := by
    have : x2 / p.xi ≤ n := by rw [div_le_iff₀ hx]; exact h2
    have : ⌈x2 / p.xi⌉ ≤ (n : ℤ) := Int.ceil_le.2 (by exact_mod_cast this)
    omega
  rw [← hm] at hB hB'
  obtain ⟨b1, b2⟩ := best_unique hm0 hB
  obtain ⟨b1', b2'⟩ := best_unique hm0 hB'
  have hδ : 0 ≤ δ := (abs_nonneg _).trans (hz 0 (Nat.zero_le _))
  have l : ∀ t, fitAt (fun j => q.z.getD j 0 - p.z.getD j 0) a m t = (z0' + s' * t) - (z0 + s * t) := by
    intro t
    rw [fitAt_sub, b1, b2, b1', b2']; unfold fitAt; ring
  have hd : ∀ j, a ≤ j → j ≤ a + m → |q.z.getD j 0 - p.z.getD j 0| ≤ δ := fun j _ j2 => hz j (by omega)
  have hmR : (m : ℝ) = b - a := by rw [hm, Nat.cast_sub hab.le]
  have hmid : mid a m = ((a : ℝ) + b) / 2 := by unfold mid; rw [hmR]; ring
  have q0 := fit_small hm0 hd 0
  have qn := fit_small hm0 hd n
  rw [l, hmid, hmR] at q0 qn
  rw [hnp, hnq]
  refine ⟨⟨?_, ?_⟩, ?_, ?_⟩
  · have e1 : (0 - ((a : ℝ) + b) / 2) / (b - a) = - (((a : ℝ) + b) / 2 / (b - a)) := by ring
    rw [e1, neg_sq, mul_zero, mul_zero, add_zero, add_zero] at q0
    exact q0
  · exact_mod_cast qn
  · intro a0
    have := fit_small_inside (t := 0) hm0 hδ hd (by rw [a0]; simp) (by positivity)
    rw [l, mul_zero, mul_zero, add_zero, add_zero] at this
    exact this
  · intro b0
    have := fit_small_inside (t := n) hm0 hδ hd (by exact_mod_cast (by omega : a ≤ n)) (by rw [hmR, b0]; linarith)
    rw [l] at this
    exact_mod_cast this

/-- **C86** (irregularity) If no height is off by more than `δ`, the irregularity of a window moves by at most `6δ`, referred to the length of
the window; never more than `30δ`. -/
theorem C86_irregularity {p q : Pfl ℝ} {x1 x2 δ v v' : ℝ} {n : ℕ} (hx : 0 < p.xi) (hnp : p.np = n) (hl : n < p.z.length) (hnq : q.np = n)
    (hxq : q.xi = p.xi) (hlq : n < q.z.length) (h1 : 0 ≤ x1) (h2 : x2 ≤ n * p.xi) (hz : ∀ j, j ≤ n → |q.z.getD j 0 - p.z.getD j 0| ≤ δ)
    (h : dlthx p x1 x2 = .ok v) (h' : dlthx q x1 x2 = .ok v') :
    |v' - v| * (1 - 0.8 * Real.exp (-(x2 - x1) / 50000)) ≤ 6 * δ ∧ |v' - v| ≤ 30 * δ := by
  obtain ⟨w, e, hw, hw0⟩ := C37_value (p := p) (x1 := x1) (x2 := x2) hx (by omega) h1 (by rw [hnp]; exact_mod_cast h2)
  obtain ⟨w', e', hw', hw0'⟩ := C37_value (p := q) (x1 := x1) (x2 := x2) (by rw [hxq]; exact hx) (by omega) h1 (by rw [hnq, hxq]; exact_mod_cast h2)
  rw [h, ok_inj] at e
  rw [h', ok_inj] at e'
  subst e e'
  rw [hxq] at hw' hw0'
  have hδ : 0 ≤ δ := (abs_nonneg _).trans (hz 0 (Nat.zero_le _))
  rcases le_or_gt 2 (x2 / p.xi - x1 / p.xi) with c | c
  · have h12 : 0 ≤ x2 - x1 := by
      by_contra hc
      have : x2 / p.xi ≤ x1 / p.xi := div_le_div_of_nonneg_right (by linarith) hx.le
      linarith
    have k := irregularity_near (by positivity) c (by rw [div_le_iff₀ hx]; exact h2) h12 hz (hw c) (hw' c)
    refine ⟨k, ?_⟩
    have f := mul_le_mul_of_nonneg_left (window_factor h12) (abs_nonneg (v' - v))
    norm_num at f k ⊢
    linarith
  · rw [hw0 c, hw0' c]
    simp [hδ]

/-- Two surveys of a path that both find it clear, with heights at most `δ` apart, give irregularities at most `30δ`
apart. -/
theorem clear_irregularity {P Q : Path} {zr zr' δ : ℝ} {G G' : Geometry} (hx : 0 < P.ξ) (hg0 : 0 ≤ P.hg₀) (hg1 : 0 ≤ P.hg₁)
    (hQ : Q = { P with z := Q.z }) (hz : ∀ j, j ≤ P.n → |Q.z j - P.z j| ≤ δ) (c : P.Clear) (c' : Q.Clear) (h : P.IsGeometry zr G)
    (h' : Q.IsGeometry zr' G') : |G'.dh - G.dh| ≤ 30 * δ := by
  obtain ⟨n, ξ, κ, a, b, z⟩ := P
  obtain ⟨n', ξ', κ', a', b', z'⟩ := Q
  simp only [Path.mk.injEq, and_true] at hQ
  obtain ⟨rfl, rfl, rfl, rfl, rfl⟩ := hQ
  dsimp only at *
  obtain ⟨θ₀, θ₁, d₀, d₁, x, y, H, ex, ey, ⟨I1, I2⟩, -, -⟩ := h
  obtain ⟨θ₀', θ₁', d₀', d₁', x', y', H', ex', ey', ⟨I1', I2'⟩, -, -⟩ := h'
  obtain ⟨-, -, e0, e1⟩ := (clear_horizons hx c).1 H
  obtain ⟨-, -, e0', e1'⟩ := (clear_horizons hx c').1 H'
  have el : (Spec.Path.mk n ξ κ a b z').len = n * ξ := rfl
  have el' : (Spec.Path.mk n ξ κ a b z).len = n * ξ := rfl
  rw [el] at e0' e1' ey'
  rw [el'] at e0 e1 ey
  rw [e0'] at ex'
  rw [e1'] at ey'
  rw [e0] at ex
  rw [e1] at ey
  dsimp only at ex ex' ey ey' I1 I2 I1' I2'
  rw [← ex] at ex'
  rw [← ey] at ey'
  rw [ex', ey'] at I1' I2'
  have hlen : (0 : ℝ) ≤ n * ξ := mul_nonneg (Nat.cast_nonneg _) hx.le
  have hx0 : 0 ≤ x := by rw [ex]; exact le_min (by positivity) (by positivity)
  have hy : y ≤ n * ξ := by
    have : 0 ≤ min (15 * b) (0.1 * (n * ξ)) := le_min (by positivity) (by positivity)
    linarith
  have hδ : 0 ≤ δ := (abs_nonneg _).trans (hz 0 (Nat.zero_le _))
  rcases le_or_gt 2 (y / ξ - x / ξ) with cc | cc
  · have hL : 0 ≤ y - x := by
      by_contra hc
      have : y / ξ ≤ x / ξ := div_le_div_of_nonneg_right (by linarith) hx.le
      linarith
    have k := irregularity_near (by positivity) cc (by rw [div_le_iff₀ hx]; exact hy) hL hz (I1 cc) (I1' cc)
    have f := mul_le_mul_of_nonneg_left (window_factor hL) (abs_nonneg (G'.dh - G.dh))
    norm_num at f k ⊢
    linarith
  · rw [I2 cc, I2' cc]
    simp [hδ]

/-- **C86** (of clear paths) Two surveys of a path that both find it clear, with heights at most `δ` apart, leave irregularities in the
dictionary that are at most `30δ` apart, whatever else the dictionaries differ in. -/
theorem C86_clear {p r p' r' : PropSt ℝ} {n : ℕ} {δ : ℝ} (hn : 1 ≤ n) (hnp : p.pfl.np = n) (hx : 0 < p.pfl.xi) (hl : n < p.pfl.z.length)
    (hg0 : 0 < p.hg.x0) (hg1 : 0 < p.hg.x1) (hκ : 0 < p.gme) (hnp' : p'.pfl.np = n) (hx' : p'.pfl.xi = p.pfl.xi) (hl' : n < p'.pfl.z.length)
    (hg' : p'.hg = p.hg) (hκ' : p'.gme = p.gme) (hz : ∀ j, j ≤ n → |p'.pfl.z.getD j 0 - p.pfl.z.getD j 0| ≤ δ)
    (c : (pathOf p n).Clear) (c' : (pathOf p' n).Clear) (h : qlrpflPrep p = .ok r) (h' : qlrpflPrep p' = .ok r') :
    |r'.dh - r.dh| ≤ 30 * δ := by
  have G := prep_geometry hn hnp hx hl hg0 hg1 hκ h (fun _ => rfl)
  have G' := prep_geometry hn hnp' (hx' ▸ hx) hl' (hg' ▸ hg0) (hg' ▸ hg1) (hκ' ▸ hκ) h' (fun _ => rfl)
  refine clear_irregularity (P := pathOf p n) (Q := pathOf p' n) hx hg0.le hg1.le ?_ hz c c' G G'
  unfold pathOf
  rw [hx', hg', hκ']

/-- A survey of four kilometres and one with errors of up to 5 m: both are answered, and C86 applies. -/
example : ∃ v v' z0 zn z0' zn' : ℝ, dlthx (⟨4, 1000, [0, 30, 70, 20, 0]⟩ : Pfl ℝ) 0 4000 = .ok v ∧
    dlthx (⟨4, 1000, [5, 27, 74, 20, -1]⟩ : Pfl ℝ) 0 4000 = .ok v' ∧ |v' - v| ≤ 150 ∧
    zlsq1 (⟨4, 1000, [0, 30, 70, 20, 0]⟩ : Pfl ℝ) 0 4000 = .ok (z0, zn) ∧
    zlsq1 (⟨4, 1000, [5, 27, 74, 20, -1]⟩ : Pfl ℝ) 0 4000 = .ok (z0', zn') ∧ |z0' - z0| ≤ 10 ∧ |zn' - zn| ≤ 10 := by
  have hz : ∀ j, j ≤ 4 → |([5, 27, 74, 20, -1] : List ℝ).getD j 0 - ([0, 30, 70, 20, 0] : List ℝ).getD j 0| ≤ 5 := by
    intro j hj
    interval_cases j <;> norm_num [abs_le]
  have ha : ⌊(0 : ℝ) / 1000⌋ = ((0 : ℕ) : ℤ) := by norm_num
  have hb : ⌈(4000 : ℝ) / 1000⌉ = ((4 : ℕ) : ℤ) := by norm_num
  obtain ⟨v, e, -⟩ := C37_value (p := ⟨4, 1000, [0, 30, 70, 20, 0]⟩) (x1 := 0) (x2 := 4000) (by norm_num) (by norm_num) (by norm_num) (by norm_num)
  obtain ⟨v', e', -⟩ := C37_value (p := ⟨4, 1000, [5, 27, 74, 20, -1]⟩) (x1 := 0) (x2 := 4000) (by norm_num) (by norm_num) (by norm_num) (by norm_num)
  obtain ⟨c, s, g, -⟩ := C33_least_squares (p := ⟨4, 1000, [0, 30, 70, 20, 0]⟩) (x1 := 0) (x2 := 4000) (by norm_num) (by norm_num) (by norm_num)
    (by norm_num) ha hb (by norm_num)
  obtain ⟨c', s', g', -⟩ := C33_least_squares (p := ⟨4, 1000, [5, 27, 74, 20, -1]⟩) (x1 := 0) (x2 := 4000) (by norm_num) (by norm_num) (by norm_num)
    (by norm_num) ha hb (by norm_num)
  have k := C86_irregularity (p := ⟨4, 1000, [0, 30, 70, 20, 0]⟩) (q := ⟨4, 1000, [5, 27, 74, 20, -1]⟩) (n := 4) (δ := 5) (by norm_num) rfl (by norm_num) rfl rfl (by norm_num) le_rfl (by norm_num) hz e e'
  have l := C86_fit (p := ⟨4, 1000, [0, 30, 70, 20, 0]⟩) (q := ⟨4, 1000, [5, 27, 74, 20, -1]⟩) (n := 4) (δ := 5) (by norm_num) rfl (by norm_num) rfl rfl (by norm_num) le_rfl (by norm_num) ha hb (by norm_num) hz g g'
  exact ⟨v, v', _, _, _, _, e, e', by linarith [k.2], g, g', by linarith [l.2.1 rfl], by linarith [l.2.2 rfl]⟩

/-- A path of 2 km between masts of 50 m, clear in both surveys. -/
noncomputable def surveyA : PropSt ℝ := { blank 0 smoothIn with hg := ⟨50, 50⟩, gme := 1 / 8500000, pfl := ⟨2, 1000, [0, 20, 10]⟩ }
noncomputable def surveyB : PropSt ℝ := { blank 0 smoothIn with hg := ⟨50, 50⟩, gme := 1 / 8500000, pfl := ⟨2, 1000, [1, 18, 12]⟩ }

example : ∃ r r', qlrpflPrep surveyA = .ok r ∧ qlrpflPrep surveyB = .ok r' ∧ |r'.dh - r.dh| ≤ 60 := by
  obtain ⟨r, e, -⟩ := qlrpflPrep_ok (p := surveyA) (n := 2) (by norm_num) rfl (by norm_num [surveyA]) (by norm_num [surveyA]) (by norm_num [surveyA])
    (by norm_num [surveyA]) (by norm_num [surveyA])
  obtain ⟨r', e', -⟩ := qlrpflPrep_ok (p := surveyB) (n := 2) (by norm_num) rfl (by norm_num [surveyB]) (by norm_num [surveyB]) (by norm_num [surveyB])
    (by norm_num [surveyB]) (by norm_num [surveyB])
  have k := C86_clear (p := surveyA) (p' := surveyB) (n := 2) (δ := 2) (by norm_num) rfl (by norm_num [surveyA]) (by norm_num [surveyA]) (by norm_num [surveyA])
    (by norm_num [surveyA]) (by norm_num [surveyA]) rfl rfl (by norm_num [surveyB]) rfl rfl
    (fun j hj => by interval_cases j <;> norm_num [surveyA, surveyB, abs_le])
    (fun j j1 j2 => by
      have : j < 2 := j2
      obtain rfl : j = 1 := by omega
      norm_num [pathOf, surveyA])
    (fun j j1 j2 => by
      have : j < 2 := j2
      obtain rfl : j = 1 := by omega
      norm_num [pathOf, surveyB]) e e'
  exact ⟨r, r', e, e', by linarith⟩

end Itm.Props
