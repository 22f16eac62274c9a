import Verif.Lemmas.LosRound

/-! C106: the line-of-sight attenuation at one distance survives rounding. -/

namespace Itm.Props
open Itm Spec
variable {α : Type} [PyNum α]

/-- On links of ordinary size away from the angle of no reflection, the jump of the reflection coefficient and extinction, line-of-sight attenuation computed in rounding
arithmetic exists and is within 0.0005 dB of the value of the formulas at the same numbers, which is what exact arithmetic returns. -/
theorem C106_los (R : Rounding α) (T : R.Trig) (d : α) (v : LosData α) (p : PropSt α) (p' : PropSt ℝ) (hp : v.In p) (hp' : (v.map R.val).In p')
    (hd : R.fin d) (hv : v.All R.fin) (ho : (v.map R.val).Ordinary (R.val d)) (hc : (v.map R.val).Clear (R.val d)) :
    ∃ a, alos d p = .ok a ∧ alos (R.val d) p' = .ok ((v.map R.val).att (R.val d)) ∧ R.fin a ∧ |R.val a - (v.map R.val).att (R.val d)| ≤ 5e-4 := by
  obtain ⟨a, e, n⟩ := alos_round T hp hd hv ho hc
  exact ⟨a, e, alos_exact hp' ho hc, n.fin, n.err⟩

/-- The effective reflection coefficient and the phase exist and are within 1e-8 and 1e-13 of the formulas, also where the two waves cancel. -/
theorem C106_ray (R : Rounding α) (d : α) (v : LosData α) (p : PropSt α) (hp : v.In p) (hd : R.fin d) (hv : v.All R.fin)
    (ho : (v.map R.val).Ordinary (R.val d)) (hr : 1e-3 ≤ ‖(v.map R.val).smooth (R.val d)‖)
    (hj : (v.map R.val).graze (R.val d) < 1 / 4 → 1e-8 ≤ |‖(v.map R.val).rough (R.val d)‖ ^ 2 - 1 / 4|) :
    ∃ r q, alosRay d p = .ok (r, q) ∧ R.fin r.re ∧ R.fin r.im ∧ R.fin q ∧
      ‖(⟨R.val r.re, R.val r.im⟩ : ℂ) - effReflection ((v.map R.val).graze (R.val d)) ((v.map R.val).rough (R.val d))‖ ≤ 1e-8 ∧
      |R.val q - rayPhase (R.val v.wn) (R.val v.he0) (R.val v.he1) (R.val d)| ≤ 1e-13 := by
  obtain ⟨r, q, e, n, -, k, -⟩ := losRay_round hp hd hv ho hr hj
  exact ⟨r, q, e, n.re, n.im, k.fin, n.err, k.err⟩

/-! ### Example -/

/-- The link of the example is clear of the exceptions. -/
theorem los_clear {a e w : ℝ} : (⟨30, 30, 1 / 2, 10, 4, 1 / 8, a, e, w⟩ : LosData ℝ).Clear 1000 := by
  generalize hv : (⟨30, 30, 1 / 2, 10, 4, 1 / 8, a, e, w⟩ : LosData ℝ) = v
  have hS : 0 < v.graze 1000 ∧ v.graze 1000 ≤ 0.06 := by
    subst hv
    unfold LosData.graze grazing
    have h : (1000 : ℝ) ≤ √(1000 ^ 2 + (30 + 30) ^ 2) := Real.le_sqrt_of_sq_le (by norm_num)
    have h0 : 0 < √((1000 : ℝ) ^ 2 + (30 + 30) ^ 2) := lt_of_lt_of_le (by norm_num) h
    refine ⟨div_pos (by norm_num) h0, ?_⟩
    rw [div_le_iff₀ h0]
    norm_num at h ⊢
    linarith
  have hz : v.z = ⟨4, 1 / 8⟩ := by subst hv; rfl
  obtain ⟨s1, s2⟩ := hS
  have hn : 0.94 ≤ ‖v.smooth 1000‖ ^ 2 := by
    unfold LosData.smooth
    rw [hz, norm_div, div_pow, ← Complex.normSq_eq_norm_sq, ← Complex.normSq_eq_norm_sq, Complex.normSq_apply, Complex.normSq_apply]
    simp only [Complex.sub_re, Complex.sub_im, Complex.add_re, Complex.add_im, Complex.ofReal_re, Complex.ofReal_im]
    generalize v.graze 1000 = S at *
    rw [le_div_iff₀ (by nlinarith)]
    norm_num at *
    nlinarith
  have hi : (v.smooth 1000).im ≤ 0 := by
    unfold LosData.smooth
    rw [hz, Complex.div_im, ← sub_div]
    refine div_nonpos_of_nonpos_of_nonneg ?_ (Complex.normSq_nonneg _)
    simp only [Complex.sub_re, Complex.sub_im, Complex.add_re, Complex.add_im, Complex.ofReal_re, Complex.ofReal_im]
    linarith
  have hr : v.rough 1000 = v.smooth 1000 * ((Real.exp (-min 10 (v.wn * terrainSigma (irregularity v.dh 1000) * v.graze 1000)) : ℝ) : ℂ) := rfl
  have hX : v.wn * terrainSigma (irregularity v.dh 1000) * v.graze 1000 ≤ 0.234 := by
    have q : irregularity v.dh 1000 ≤ 10 ∧ 0 ≤ irregularity v.dh 1000 := by
      subst hv
      have h1 := Real.exp_pos (-1000 / 50000 : ℝ)
      have h2 : Real.exp (-1000 / 50000 : ℝ) ≤ 1 := Real.exp_le_one_iff.2 (by norm_num)
      unfold irregularity
      generalize Real.exp (-1000 / 50000 : ℝ) = y at *
      norm_num
      constructor <;> linarith
    have t : terrainSigma (irregularity v.dh 1000) ≤ 7.8 ∧ 0 ≤ terrainSigma (irregularity v.dh 1000) := by
      unfold terrainSigma
      have h1 : Real.exp (-((irregularity v.dh 1000 / 16) ^ (1 / 4 : ℝ))) ≤ 1 :=
        Real.exp_le_one_iff.2 (neg_nonpos.2 (Real.rpow_nonneg (div_nonneg q.2 (by norm_num)) _))
      have h2 := Real.exp_pos (-((irregularity v.dh 1000 / 16) ^ (1 / 4 : ℝ)))
      have q1 := q.1
      have q2 := q.2
      generalize irregularity v.dh 1000 = y at *
      generalize Real.exp _ = u at *
      constructor
      · exact (mul_le_mul (show 0.78 * y ≤ 7.8 by norm_num at *; linarith) h1 h2.le (by norm_num)).trans (by norm_num)
      · positivity
    rw [show v.wn = 1 / 2 by subst hv; rfl]
    have t1 := mul_le_mul t.1 s2 s1.le (by norm_num)
    norm_num at t1 ⊢
    linarith
  have hE : 0.766 ≤ Real.exp (-min 10 (v.wn * terrainSigma (irregularity v.dh 1000) * v.graze 1000)) := by
    refine le_trans ?_ (Real.add_one_le_exp _)
    have := (min_le_right 10 (v.wn * terrainSigma (irregularity v.dh 1000) * v.graze 1000)).trans hX
    generalize min 10 (v.wn * terrainSigma (irregularity v.dh 1000) * v.graze 1000) = y at *
    norm_num at *
    linarith
  generalize Real.exp (-min 10 (v.wn * terrainSigma (irregularity v.dh 1000) * v.graze 1000)) = E at *
  have Ep : 0 < E := lt_of_lt_of_le (by norm_num) hE
  have hR : 0.55 ≤ ‖v.rough 1000‖ ^ 2 := by
    rw [hr, norm_mul, mul_pow, Complex.norm_real, Real.norm_eq_abs, sq_abs]
    have : 0.766 ^ 2 ≤ E ^ 2 := pow_le_pow_left₀ (by norm_num) hE 2
    exact le_trans (by norm_num) (mul_le_mul hn this (by positivity) (by positivity))
  refine ⟨?_, fun _ => ?_, ?_⟩
  · by_contra c
    have : ‖v.smooth 1000‖ ^ 2 ≤ 1e-3 ^ 2 := pow_le_pow_left₀ (norm_nonneg _) (not_le.1 c).le 2
    have := hn.trans this
    norm_num at this
  · rw [le_abs]; left
    generalize ‖v.rough 1000‖ ^ 2 = y at *
    norm_num at *
    linarith
  · have e1 : effReflection (v.graze 1000) (v.rough 1000) = v.rough 1000 := by
      unfold effReflection
      rw [if_neg]
      rintro (c | c)
      · exact absurd (hR.trans_lt c) (by norm_num)
      · exact absurd ((hR.trans_lt c).trans_le s2) (by norm_num)
    have ph : rayPhase v.wn v.he0 v.he1 1000 = 0.9 := by
      subst hv
      unfold rayPhase
      norm_num
    have im : (v.field 1000).im ≤ -(1e-3) := by
      unfold LosData.field
      rw [e1, ph, Complex.add_im, ← Complex.ofReal_neg, Complex.exp_ofReal_mul_I_im, Real.sin_neg, hr, Complex.im_mul_ofReal]
      have h1 := Real.sin_gt_sub_cube (x := 0.9) (by norm_num)
      have h2 := mul_nonpos_of_nonpos_of_nonneg hi Ep.le
      norm_num at *
      linarith
    refine le_trans ?_ (Complex.abs_im_le_norm _)
    rw [le_abs]
    right
    linarith

/-- A link of 1 km at about 24 MHz between antennas 30 m high, in doubles. -/
example {M : Libm} (h : M.Accurate) (t : M.Trig) (p : PropSt (DoubleOf M)) (p' : PropSt ℝ)
    (v : LosData (DoubleOf M)) (hv : v = ⟨30.0, 30.0, 0.5, 10.0, 4.0, 0.125, 10.0, 0.001, 0.5⟩)
    (hp : v.In p) (hp' : (v.map Double.val).In p') :
    ∃ a a', alos 1000.0 p = .ok a ∧ alos 1000.0 p' = .ok a' ∧ Double.Finite a ∧ |Double.val a - a'| ≤ 5e-4 := by
  obtain ⟨f0, v0⟩ := Near.lit_int (ieee h) (m := 10000) (s := true) (k := 1) 1000 (by norm_num) (by norm_num)
  obtain ⟨f1, v1⟩ := Near.lit_int (ieee h) (m := 300) (s := true) (k := 1) 30 (by norm_num) (by norm_num)
  obtain ⟨f2, v2⟩ := Near.lit_exact (ieee h) (m := 5) (s := true) (k := 1) 1 (-1) (by norm_num) (by norm_num) (by norm_num) (by norm_num)
  obtain ⟨f3, v3⟩ := Near.lit_int (ieee h) (m := 100) (s := true) (k := 1) 10 (by norm_num) (by norm_num)
  obtain ⟨f4, v4⟩ := Near.lit_int (ieee h) (m := 40) (s := true) (k := 1) 4 (by norm_num) (by norm_num)
  obtain ⟨f5, v5⟩ := Near.lit_exact (ieee h) (m := 125) (s := true) (k := 3) 1 (-3) (by norm_num) (by norm_num) (by norm_num) (by norm_num)
  have n6 := NB.lit (ieee h) (m := 1) (s := true) (k := 3) (X := 1) (g := 2e-15) (by norm_num) (by norm_num) (by norm_num)
  have g6 := abs_le.1 n6.err
  have ev : v.map (ieee h).val = ⟨30, 30, 1 / 2, 10, 4, 1 / 8, 10, (ieee h).val 0.001, 1 / 2⟩ := by
    subst hv
    simp only [LosData.map, v1, v2, v3, v4, v5]
    norm_num
  have e0 : (ieee h).val 1000.0 = 1000 := by rw [v0]; norm_num
  obtain ⟨a, e1, e2, f, n⟩ := C106_los (ieee h) (ieee_trig h t) 1000.0 v p p' hp hp' f0
    (by subst hv; exact ⟨f1, f1, f2, f3, f4, f5, f3, n6.fin, f2⟩)
    (by
      rw [ev, e0]
      refine ⟨?_, ?_, ?_, ?_, ?_, ?_, ?_, ?_⟩
      · norm_num
      · norm_num
      · norm_num
      · norm_num
      · norm_num
      · norm_num [abs_le]
      · refine ⟨by norm_num [abs_le], abs_le.2 ?_⟩
        clear * - g6; norm_num at *; constructor <;> linarith
      · norm_num)
    (by rw [ev, e0]; exact los_clear)
  rw [v0] at e2 n
  exact ⟨a, _, e1, e2, f, n⟩

end Itm.Props
