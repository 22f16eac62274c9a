import Verif.Props.C39
import Verif.Lemmas.P2P

/-! C90: over straight terrain the point-to-point mode and the area mode return the same attenuation. -/

namespace Itm.Props
open Itm Itm.Spec

/-- When the effective heights multiply to the antenna heights the set-up does not depend on the mode. -/
theorem diffC_mode {i : LrIn ℝ} {h : Horizon ℝ} (he : i.he.x0 * i.he.x1 = i.hg.x0 * i.hg.x1) (hp : 0 < i.hg.x0 * i.hg.x1) :
    diffC (-1) i h = diffC 1 i h := by
  unfold diffC adiffInit
  have e0 : i.he.x0 * i.he.x1 - i.hg.x0 * i.hg.x1 = 0 := by rw [he, sub_self]
  have l : i.hg.x0 * i.hg.x1 + 10.0 ≠ 0 := by
    have : (0 : ℝ) < 10.0 := by norm_num
    exact (add_pos hp this).ne'
  have m1 : ({ blank (-1) i with hor := some h } : PropSt ℝ).mdp < 0 := by change (-1 : Int) < 0; norm_num
  have m2 : ¬ ({ blank 1 i with hor := some h } : PropSt ℝ).mdp < 0 := by change ¬ (1 : Int) < 0; norm_num
  simp only [if_pos m1, if_neg m2]
  simp only [blank, need_some, ok_bind]
  rw [e0, pyDiv_ok l, pyDiv_ok hp.ne', zero_div, zero_div]
  simp only [ok_bind, bind_assoc, pure_bind, need_some]

theorem setupC_mode {i : LrIn ℝ} (he : i.he.x0 * i.he.x1 = i.hg.x0 * i.hg.x1) (hp : 0 < i.hg.x0 * i.hg.x1) :
    setupC (-1) i = setupC 1 i := by
  have hA : ∀ h c d, adiffC (-1) i h c d = adiffC 1 i h c d := by
    intro h c d
    unfold adiffC adiff
    split_ifs
    · rw [adiffInit_eq (p := { blank (-1) i with hor := some h, diff := some c }) rfl,
        adiffInit_eq (p := { blank 1 i with hor := some h, diff := some c }) rfl]
      simp only [bind_assoc, pure_bind]
      have := diffC_mode (h := h) he hp
      exact congrArg (fun x : Py (DiffC ℝ) => x >>= fun _ => pure 0.0) this
    · unfold adiffParts adiffWeight
      simp only [blank, need_some, ok_bind, bind_assoc, pure_bind]
  unfold setupC lineC
  have : ∀ h c, adiffC (-1) i h c = adiffC 1 i h c := fun h c => funext (hA h c)
  simp only [diffC_mode he hp, this]

/-- The two modes of `lrprop` on the same parameters. -/
theorem lrprop_mode {p q : PropSt ℝ} {d : ℝ} (hi : inp p = inp q) (hpm : p.mdp = -1) (hqm : q.mdp = 1)
    (he : p.he.x0 * p.he.x1 = p.hg.x0 * p.hg.x1) (hp : 0 < p.hg.x0 * p.hg.x1) :
    ExRel (fun x y => x.dist = y.dist ∧ x.aref = y.aref) (lrprop d p) (lrprop p.dist q) := by
  rw [lrprop_setup (by rw [hpm]; norm_num), lrprop_setup (by rw [hqm]; norm_num), ← hi, hpm, hqm,
    setupC_mode (i := inp p) he hp]
  have d1 : distOf p d = p.dist := by unfold distOf; rw [if_neg (by rw [hpm]; norm_num)]
  have d2 : distOf q p.dist = p.dist := by unfold distOf; rw [if_pos (by rw [hqm]; norm_num)]
  rw [d1, d2]
  refine ExRel.bind_same _ fun s _ => ?_
  refine (runC_rel ordered_real (inp p) s.h s.l p.dist (c := { cacheOf p with wlos := false, wscat := false, ascat1 := 0.0 })
    (c' := { cacheOf q with wlos := false, wscat := false, ascat1 := 0.0 }) ⟨rfl, rfl, rfl, fun h => ?_⟩ fun h => ?_).bind
      fun x y hxy => ?_
  · exact absurd h (by simp)
  · exact absurd h (by simp)
  · exact ⟨rfl, hxy.2.1⟩

/-- On straight terrain a path shorter than the two smooth-earth horizon distances together is clear. -/
theorem clear_straight {p : PropSt ℝ} {n : ℕ} {c s : ℝ} (hn : 1 ≤ n) (hx : 0 < p.pfl.xi) (hl : n < p.pfl.z.length) (hκ : 0 < p.gme)
    (hg0 : 0 < p.hg.x0) (hg1 : 0 < p.hg.x1) (hz : ∀ j, j < p.pfl.z.length → p.pfl.z.getD j 0 = c + s * j)
    (hd : n * p.pfl.xi ≤ smoothReach p.gme p.hg.x0 + smoothReach p.gme p.hg.x1) : ClearPath p n := by
  intro j h1 h2
  have hn' : (0 : ℝ) < n := by exact_mod_cast hn
  have hj : (0 : ℝ) < j := by exact_mod_cast h1
  have hj' : (j : ℝ) < n := by exact_mod_cast h2
  rw [hz j (by omega), hz 0 (by omega), hz n hl]
  have e1 : (1 - (j : ℝ) / n) * (c + s * ((0 : ℕ) : ℝ) + p.hg.x0) + (j : ℝ) / n * (c + s * n + p.hg.x1) =
      c + s * j + ((1 - (j : ℝ) / n) * p.hg.x0 + (j : ℝ) / n * p.hg.x1) := by
    push_cast; field_simp; ring
  rw [e1]
  obtain ⟨a, ha⟩ : ∃ a, a = smoothReach p.gme p.hg.x0 := ⟨_, rfl⟩
  obtain ⟨b, hb⟩ : ∃ b, b = smoothReach p.gme p.hg.x1 := ⟨_, rfl⟩
  have ea : p.hg.x0 = p.gme / 2 * a ^ 2 := by
    rw [ha]; unfold smoothReach; rw [Real.sq_sqrt (by positivity)]; field_simp
  have eb : p.hg.x1 = p.gme / 2 * b ^ 2 := by
    rw [hb]; unfold smoothReach; rw [Real.sq_sqrt (by positivity)]; field_simp
  rw [← ha, ← hb] at hd
  have hD : 0 < n * p.pfl.xi := by positivity
  have key : (j : ℝ) * (n - j) * (n * p.pfl.xi) ^ 2 ≤ n * ((n - j) * a ^ 2 + j * b ^ 2) := by
    have h1 : (n * p.pfl.xi) ^ 2 ≤ (a + b) ^ 2 := pow_le_pow_left₀ hD.le hd 2
    have h2 : (j : ℝ) * (n - j) * (n * p.pfl.xi) ^ 2 ≤ j * (n - j) * (a + b) ^ 2 :=
      mul_le_mul_of_nonneg_left h1 (mul_nonneg hj.le (by linarith))
    have h3 : n * ((n - j) * a ^ 2 + j * b ^ 2) - j * (n - j) * (a + b) ^ 2 = ((n - j) * a - j * b) ^ 2 := by ring
    have h4 := sq_nonneg ((n - j) * a - j * b)
    linarith
  have : p.gme / 2 * (j * p.pfl.xi) * ((n - j) * p.pfl.xi) ≤ (1 - (j : ℝ) / n) * p.hg.x0 + (j : ℝ) / n * p.hg.x1 := by
    rw [ea, eb, show p.gme / 2 * (j * p.pfl.xi) * ((n - j) * p.pfl.xi) = p.gme / 2 / n ^ 2 * (j * (n - j) * (n * p.pfl.xi) ^ 2) by field_simp,
      show (1 - (j : ℝ) / n) * (p.gme / 2 * a ^ 2) + (j : ℝ) / n * (p.gme / 2 * b ^ 2) =
        p.gme / 2 / n ^ 2 * (n * ((n - j) * a ^ 2 + j * b ^ 2)) by field_simp]
    exact mul_le_mul_of_nonneg_left key (by positivity)
  linarith

/-- The area preparation over terrain of irregularity 0. -/
theorem qlra_zero {p : PropSt ℝ} (hκ : 0 < p.gme) (hg0 : 0 < p.hg.x0) (hg1 : 0 < p.hg.x1) :
    qlra ⟨0, 0⟩ { p with dh := 0 } = .ok (prepMarks { p with
      dh := 0
      he := p.hg
      dl := ⟨roughHorizon p.gme 0 p.hg.x0, roughHorizon p.gme 0 p.hg.x1⟩
      the := ⟨roughAngle p.gme 0 p.hg.x0, roughAngle p.gme 0 p.hg.x1⟩
      mdp := 1 }) := by
  unfold qlra
  have hh : ∀ h : ℝ, qlraHe 0 h 0 = h := fun h => by unfold qlraHe; rw [if_pos le_rfl]
  simp only [hh]
  rw [qlraHorizon_ok hκ hg0 le_rfl, ok_bind, qlraHorizon_ok hκ hg1 le_rfl, ok_bind]
  rfl

theorem qlra_hg {p q : PropSt ℝ} (hκ : 0 < p.gme) (hg0 : 0 < p.hg.x0) (hg1 : 0 < p.hg.x1) (h : qlra ⟨0, 0⟩ { p with dh := 0 } = .ok q) :
    q.hg = p.hg := by
  rw [qlra_zero hκ hg0 hg1, ok_inj] at h
  rw [← h, (prepMarks_marked _).rest]

theorem qlra_five {p q : PropSt ℝ} (hκ : 0 < p.gme) (hg0 : 0 < p.hg.x0) (hg1 : 0 < p.hg.x1) (h : qlra ⟨0, 0⟩ { p with dh := 0 } = .ok q)
    (hk : 0 < p.klimx) : q.lvar = 5 := by
  rw [qlra_zero hκ hg0 hg1, ok_inj] at h
  rw [← h, (prepMarks_marked _).lvar]
  exact if_pos hk

/-- **C90** (parameters) Straight terrain that does not fall towards the receiver, a path shorter than the two smooth-earth horizon
distances together: apart from the distance and the mode, the point-to-point preparation derives exactly the parameters that the
area preparation derives for randomly sited antennas over terrain of irregularity 0. -/
theorem C90_parameters {p : PropSt ℝ} {n : ℕ} {c s : ℝ} (hn : 1 ≤ n) (hnp : p.pfl.np = n) (hx : 0 < p.pfl.xi) (hl : n < p.pfl.z.length)
    (hκ : 0 < p.gme) (hg0 : 0 < p.hg.x0) (hg1 : 0 < p.hg.x1) (hs : 0 ≤ s)
    (hz : ∀ j, j < p.pfl.z.length → p.pfl.z.getD j 0 = c + s * j)
    (hd : n * p.pfl.xi < Real.sqrt (2 * p.hg.x0 / p.gme) + Real.sqrt (2 * p.hg.x1 / p.gme)) :
    ∃ q, qlra ⟨0, 0⟩ { p with dh := 0 } = .ok q ∧ q.he = p.hg ∧ q.mdp = 1 ∧
      qlrpflPrep p = .ok { q with dist := n * p.pfl.xi, mdp := -1 } := by
  obtain ⟨q, e, hq⟩ := qlrpflPrep_ok hn hnp hx hl hg0 hg1 hκ
  have hclear := clear_straight hn hx hl hκ hg0 hg1 hz hd.le
  obtain ⟨the, dl, dh, x1, x2, hzn, hx1, hx2, x10, x12, x2n, edh, hdh, qdh, hc⟩ := hq.data
  have hsum := hz_sum hn hnp hx hl hzn
  rw [clear_iff hn hx] at hclear
  have hnr : (p.pfl.np : ℝ) = n := by rw [hnp]; rfl
  have e0 : dh = 0 := by
    have := C37_straight (p := p.pfl) (x1 := x1) (x2 := x2) hx (by omega) x10.le (by rw [hnr]; exact x2n.le) hz
    rw [edh, ok_inj] at this
    exact this
  have hfl : ⌊x1 / p.pfl.xi⌋ < ⌈x2 / p.pfl.xi⌉ := by
    have a := Int.floor_le (x1 / p.pfl.xi)
    have b := Int.le_ceil (x2 / p.pfl.xi)
    have c : x1 / p.pfl.xi < x2 / p.pfl.xi := div_lt_div_of_pos_right x12 hx
    have : ((⌊x1 / p.pfl.xi⌋ : ℤ) : ℝ) < ((⌈x2 / p.pfl.xi⌉ : ℤ) : ℝ) := by linarith
    exact_mod_cast this
  have hline := C33_straight (p := p.pfl) (x1 := x1) (x2 := x2) hx (by omega) x10.le (by rw [hnr]; exact x2n.le) hfl hz
  rw [zlsq1_line hx (by omega) x10.le x12 (by rw [hnr]; exact x2n.le), ok_inj, Prod.mk.injEq, hnr] at hline
  have smooth : ∀ h, roughHorizon p.gme 0 h = smoothReach p.gme h := by
    intro h; unfold roughHorizon; simp
  rcases hc with ⟨-, he0, he1, f, ea, eb, ef, h1, h2, h3⟩ | ⟨hne, -⟩
  · have z0 : p.pfl.h 0 = c := by
      have := hz 0 (by omega)
      unfold Pfl.h; rw [this]; simp
    have zn : p.pfl.h (n - 1) = c + s * n - s := by
      have := hz (n - 1) (by omega)
      unfold Pfl.h; rw [this, Nat.cast_sub hn]; push_cast; ring
    rw [hline.1, z0] at ea
    rw [hline.2, zn] at eb
    have ea : he0 = p.hg.x0 := by rw [ea]; unfold effHeight; simp
    have eb : he1 = p.hg.x1 := by
      rw [eb]; unfold effHeight
      rw [show c + s * n - s - (c + s * n) = -s by ring, max_eq_right (by linarith), add_zero]
    have hf : f = 1 := by
      rw [ef, e0, ea, eb]
      unfold stretch
      rw [smooth, smooth, if_neg (not_le.2 (show n * p.pfl.xi < smoothReach p.gme p.hg.x0 + smoothReach p.gme p.hg.x1 from hd))]
    rw [hf, ea, eb, mul_one, mul_one] at h1 h2 h3
    rw [e0] at h2 h3
    have hqa : qlra ⟨0, 0⟩ { p with dh := 0 } = .ok (prepMarks { p with dh := 0, he := p.hg, dl := q.dl, the := q.the, mdp := 1 }) := by
      rw [qlra_zero hκ hg0 hg1, h2, h3]
    refine ⟨_, hqa, ?_, ?_, ?_⟩
    · exact (prepMarks_geom _).2.2.1
    · rw [(prepMarks_marked _).rest]
    · rw [e, hq.rest, h1, qdh, e0]
      have := prepMarks_marked { p with dh := 0, he := p.hg, dl := q.dl, the := q.the, mdp := 1 }
      rw [this.rest, this.lvar, this.mdvar, this.klim]
  · rcases hsum with ⟨hdl, -⟩ | ⟨-, -, -, j, j1, j2, j3⟩
    · exact absurd hdl hne
    · exact absurd (hclear j j1 j2) (not_le.2 j3)

/-- **C90** (reference attenuation) On such terrain both modes compute the same reference attenuation at the path's distance – or raise
the same exception. -/
theorem C90_reference {p : PropSt ℝ} {n : ℕ} {c s : ℝ} (hn : 1 ≤ n) (hnp : p.pfl.np = n) (hx : 0 < p.pfl.xi) (hl : n < p.pfl.z.length)
    (hκ : 0 < p.gme) (hg0 : 0 < p.hg.x0) (hg1 : 0 < p.hg.x1) (hs : 0 ≤ s)
    (hz : ∀ j, j < p.pfl.z.length → p.pfl.z.getD j 0 = c + s * j)
    (hd : n * p.pfl.xi < Real.sqrt (2 * p.hg.x0 / p.gme) + Real.sqrt (2 * p.hg.x1 / p.gme)) :
    (fun q : PropSt ℝ => (q.dist, q.aref)) <$> qlrpfl p =
      (fun q : PropSt ℝ => (q.dist, q.aref)) <$> (qlra ⟨0, 0⟩ { p with dh := 0 } >>= lrprop (n * p.pfl.xi)) := by
  obtain ⟨q, e1, he, hm, e2⟩ := C90_parameters hn hnp hx hl hκ hg0 hg1 hs hz hd
  have hhg : q.hg = p.hg := qlra_hg hκ hg0 hg1 e1
  unfold qlrpfl
  rw [e1, e2, ok_bind, ok_bind]
  refine (lrprop_mode (p := { q with dist := n * p.pfl.xi, mdp := -1 }) (q := q) rfl rfl hm ?_ ?_).map_eq ?_
  · change q.he.x0 * q.he.x1 = q.hg.x0 * q.hg.x1
    rw [he, hhg]
  · change 0 < q.hg.x0 * q.hg.x1
    rw [hhg]; exact mul_pos hg0 hg1
  · rintro a b ⟨h1, h2⟩
    rw [h1, h2]

/-- **C90** (quantiles) Hence both modes return the same attenuation quantile for every combination of deviates. (`klimx` is set, as
both drivers do, so that `avar` starts afresh.) -/
theorem C90_quantile {p : PropSt ℝ} {n : ℕ} {c s : ℝ} (hn : 1 ≤ n) (hnp : p.pfl.np = n) (hx : 0 < p.pfl.xi) (hl : n < p.pfl.z.length)
    (hκ : 0 < p.gme) (hg0 : 0 < p.hg.x0) (hg1 : 0 < p.hg.x1) (hs : 0 ≤ s)
    (hz : ∀ j, j < p.pfl.z.length → p.pfl.z.getD j 0 = c + s * j)
    (hd : n * p.pfl.xi < Real.sqrt (2 * p.hg.x0 / p.gme) + Real.sqrt (2 * p.hg.x1 / p.gme)) (hk : 0 < p.klimx) (zt zl zc : ℝ) :
    Prod.fst <$> (qlrpfl p >>= avar zt zl zc) =
      Prod.fst <$> (qlra ⟨0, 0⟩ { p with dh := 0 } >>= lrprop (n * p.pfl.xi) >>= avar zt zl zc) := by
  obtain ⟨q, e1, he, hm, e2⟩ := C90_parameters hn hnp hx hl hκ hg0 hg1 hs hz hd
  have hhg : q.hg = p.hg := qlra_hg hκ hg0 hg1 e1
  have hlv : q.lvar = 5 := qlra_five hκ hg0 hg1 e1 hk
  unfold qlrpfl
  rw [e1, e2, ok_bind, ok_bind]
  have r := lrprop_mode (d := 0.0) (p := { q with dist := n * p.pfl.xi, mdp := -1 }) (q := q) rfl rfl hm
    (by change q.he.x0 * q.he.x1 = q.hg.x0 * q.hg.x1; rw [he, hhg]) (by change 0 < q.hg.x0 * q.hg.x1; rw [hhg]; exact mul_pos hg0 hg1)
  refine ExRel.map_eq (R := fun x y => x.1 = y.1) ?_ fun a b h => h
  refine (r.mono (S := AnsRel) fun x y hx hy hxy => ?_).bind fun x y h => (avar_rel h zt zl zc).mono fun a b _ _ h => h.1
  have fx := lrprop_frame hx
  have fy := lrprop_frame hy
  refine ⟨cacheInv_lrFrame (cacheInv_of_five (by change 5 ≤ q.lvar; omega)) (by change 1 ≤ q.lvar; omega) fx,
    cacheInv_lrFrame (cacheInv_of_five (by omega)) (by omega) fy, ?_⟩
  unfold ansKey
  rw [hxy.1, hxy.2]
  obtain ⟨_, _, _, _, _, _, _, rfl⟩ := fx
  obtain ⟨_, _, _, _, _, _, _, rfl⟩ := fy
  rfl

/-- **C90** (falling terrain) Where the terrain falls towards the receiver the modes part: the point-to-point mode credits the receiver with
the fall of the last interval. -/
theorem C90_falling {p : PropSt ℝ} {n : ℕ} {c s : ℝ} (hn : 1 ≤ n) (hnp : p.pfl.np = n) (hx : 0 < p.pfl.xi) (hl : n < p.pfl.z.length)
    (hκ : 0 < p.gme) (hs : 0 < s) (hz : ∀ j, j < p.pfl.z.length → p.pfl.z.getD j 0 = c - s * j)
    (hg0 : p.gme * (n * p.pfl.xi) ^ 2 / 8 < p.hg.x0) (hg1 : p.gme * (n * p.pfl.xi) ^ 2 / 8 < p.hg.x1) :
    ∃ q q', qlrpflPrep p = .ok q ∧ qlra ⟨0, 0⟩ { p with dh := 0 } = .ok q' ∧ q.he.x1 = q'.he.x1 + s := by
  obtain ⟨q, e, h⟩ := C40_refuted hn hnp hx hl hκ hs hz hg0 hg1
  have hq0 : 0 ≤ p.gme * (n * p.pfl.xi) ^ 2 / 8 := by positivity
  exact ⟨q, _, e, qlra_zero hκ (hq0.trans_lt hg0) (hq0.trans_lt hg1), by rw [(prepMarks_geom _).2.2.1, h]⟩

/-- The path of the examples: 2 km, antennas of 10 and 20 m, terrain rising by 30 m per kilometre. -/
noncomputable def risingPath : PropSt ℝ := { pathState [100, 130, 160] with klimx := 5 }

theorem risingPath_ok : (risingPath.pfl.np = (2 : ℕ)) ∧ 0 < risingPath.pfl.xi ∧ 2 < risingPath.pfl.z.length ∧ 0 < risingPath.gme ∧
    (∀ j, j < risingPath.pfl.z.length → risingPath.pfl.z.getD j 0 = 100 + 30 * j) ∧
    (2 : ℕ) * risingPath.pfl.xi < Real.sqrt (2 * risingPath.hg.x0 / risingPath.gme) + Real.sqrt (2 * risingPath.hg.x1 / risingPath.gme) := by
  have hκ : risingPath.gme = 1.25e-7 := rfl
  refine ⟨rfl, by norm_num [risingPath, pathState], by simp [risingPath, pathState], by rw [hκ]; norm_num, ?_, ?_⟩
  · intro j hj
    have : j < 3 := hj
    interval_cases j <;> norm_num [risingPath, pathState]
  · rw [hκ, show risingPath.hg = ⟨10, 20⟩ from rfl, show risingPath.pfl.xi = 1000 from rfl]
    have h1 : (2000 : ℝ) < Real.sqrt (2 * 10 / 1.25e-7) := Real.lt_sqrt_of_sq_lt (by norm_num)
    have h2 := Real.sqrt_nonneg ((2 : ℝ) * 20 / 1.25e-7)
    push_cast
    linarith

example : ∃ q, qlra ⟨0, 0⟩ { risingPath with dh := 0 } = .ok q ∧ q.he = ⟨10, 20⟩ ∧ q.mdp = 1 ∧
    qlrpflPrep risingPath = .ok { q with dist := 2 * 1000, mdp := -1 } := by
  obtain ⟨h1, h2, h3, h4, h5, h6⟩ := risingPath_ok
  exact C90_parameters (n := 2) (by norm_num) h1 h2 h3 h4 (by norm_num [risingPath, pathState]) (by norm_num [risingPath, pathState]) (by norm_num) h5 h6

example (zt zl zc : ℝ) : Prod.fst <$> (qlrpfl risingPath >>= avar zt zl zc) =
    Prod.fst <$> (qlra ⟨0, 0⟩ { risingPath with dh := 0 } >>= lrprop (2 * 1000) >>= avar zt zl zc) := by
  obtain ⟨h1, h2, h3, h4, h5, h6⟩ := risingPath_ok
  exact C90_quantile (n := 2) (by norm_num) h1 h2 h3 h4 (by norm_num [risingPath, pathState]) (by norm_num [risingPath, pathState]) (by norm_num) h5 h6
    (by norm_num [risingPath]) zt zl zc

end Itm.Props
