import Verif.Lemmas.LineReal
import Mathlib.Analysis.Convex.SpecificFunctions.Basic
import Mathlib.Analysis.Convex.Slope

/-! Line-of-sight attenuation over the reals. -/

namespace Itm

/-- Sine of the grazing angle of the reflected ray. -/
noncomputable def spsR (he : Pair ℝ) (d : ℝ) : ℝ := (he.x0 + he.x1) / Real.sqrt (d ^ 2 + (he.x0 + he.x1) ^ 2)

theorem spsR_range {he : Pair ℝ} {d : ℝ} (h0 : 0 < he.x0) (h1 : 0 < he.x1) (hd : 0 < d) : 0 < spsR he d ∧ spsR he d < 1 := by
  have hs : 0 < he.x0 + he.x1 := by linarith
  have hp : 0 < Real.sqrt (d ^ 2 + (he.x0 + he.x1) ^ 2) := by positivity
  refine ⟨div_pos hs hp, (div_lt_one hp).2 ?_⟩
  exact Real.lt_sqrt_of_sq_lt (by nlinarith)

theorem normSq_real (z : Cx ℝ) : z.normSq = z.re * z.re + z.im * z.im := rfl

theorem normSq_nonneg (z : Cx ℝ) : 0 ≤ z.normSq := by
  rw [normSq_real]; nlinarith [mul_self_nonneg z.re, mul_self_nonneg z.im]

theorem normSq_smul (z : Cx ℝ) (t : ℝ) : (z.smul t).normSq = t ^ 2 * z.normSq := by
  rw [normSq_real, normSq_real]; simp only [Cx.smul]; ring

theorem abs_sq (z : Cx ℝ) : z.abs ^ 2 = z.normSq := by
  rw [cxabs_real, Real.sq_sqrt]; · rfl
  · exact normSq_nonneg z

/-- The formula of the schoolbook. -/
noncomputable def cxQuot (z w : Cx ℝ) : Py (Cx ℝ) := do
  let re ← (z.re * w.re + z.im * w.im) /! w.normSq
  let im ← (z.im * w.re - z.re * w.im) /! w.normSq
  .ok ⟨re, im⟩

theorem smith_re (z : Cx ℝ) {w : Cx ℝ} (h0 : w.re ≠ 0) : (do
    let ratio ← w.im /! w.re
    let denom := w.re + w.im * ratio
    let re ← (z.re + z.im * ratio) /! denom
    let im ← (z.im - z.re * ratio) /! denom
    .ok (⟨re, im⟩ : Cx ℝ) : Py (Cx ℝ)) = cxQuot z w := by
  unfold cxQuot
  rw [normSq_real]
  have h2 : 0 < w.re * w.re + w.im * w.im := by nlinarith [mul_self_pos.2 h0, mul_self_nonneg w.im]
  have h3 : w.re + w.im * (w.im / w.re) = (w.re * w.re + w.im * w.im) / w.re := by field_simp
  rw [pyDiv_ok h0, ok_bind, pyDiv_ok h2.ne', ok_bind, pyDiv_ok h2.ne', ok_bind]
  dsimp only
  rw [h3, pyDiv_ok (div_ne_zero h2.ne' h0), ok_bind, pyDiv_ok (div_ne_zero h2.ne' h0), ok_bind]
  have h4 := h2.ne'
  congr 2 <;> field_simp

theorem smith_im (z : Cx ℝ) {w : Cx ℝ} (h0 : w.im ≠ 0) : (do
    let ratio ← w.re /! w.im
    let denom := w.re * ratio + w.im
    let re ← (z.re * ratio + z.im) /! denom
    let im ← (z.im * ratio - z.re) /! denom
    .ok (⟨re, im⟩ : Cx ℝ) : Py (Cx ℝ)) = cxQuot z w := by
  unfold cxQuot
  rw [normSq_real]
  have h2 : 0 < w.re * w.re + w.im * w.im := by nlinarith [mul_self_pos.2 h0, mul_self_nonneg w.re]
  have h3 : w.re * (w.re / w.im) + w.im = (w.re * w.re + w.im * w.im) / w.im := by field_simp
  rw [pyDiv_ok h0, ok_bind, pyDiv_ok h2.ne', ok_bind, pyDiv_ok h2.ne', ok_bind]
  dsimp only
  rw [h3, pyDiv_ok (div_ne_zero h2.ne' h0), ok_bind, pyDiv_ok (div_ne_zero h2.ne' h0), ok_bind]
  have h4 := h2.ne'
  congr 2 <;> field_simp

/-- Over the reals Smith's algorithm is the formula of the schoolbook. -/
theorem cxdiv_quot (z w : Cx ℝ) : Cx.div z w = cxQuot z w := by
  unfold Cx.div
  rw [rabs, rabs]
  split_ifs with h
  · by_cases h0 : w.re = 0
    · have h1 : w.im = 0 := by rw [h0, abs_zero] at h; exact abs_eq_zero.1 (le_antisymm h (abs_nonneg _))
      unfold cxQuot
      rw [normSq_real, h0, h1]
      have e : (0:ℝ) * 0 + 0 * 0 = 0 := by norm_num
      rw [e]
      have q : ∀ x : ℝ, x /! 0 = .error .zeroDivision := fun x => by
        unfold pyDiv; rw [if_pos (by rw [pyEq_real, zero_lit])]
      rw [q, q]; rfl
    · exact smith_re z h0
  · refine smith_im z (fun h0 => h ?_)
    rw [h0, abs_zero]; exact abs_nonneg _

theorem cxdiv_real (z w : Cx ℝ) : Cx.div z w = (do
    let re ← (z.re * w.re + z.im * w.im) /! w.normSq
    let im ← (z.im * w.re - z.re * w.im) /! w.normSq
    .ok ⟨re, im⟩) := cxdiv_quot z w

theorem cxdiv_ok {z w : Cx ℝ} (h : w.normSq ≠ 0) :
    ∃ r, Cx.div z w = .ok r ∧ r.normSq * w.normSq = z.normSq ∧
      r = ⟨(z.re * w.re + z.im * w.im) / w.normSq, (z.im * w.re - z.re * w.im) / w.normSq⟩ := by
  rw [cxdiv_real]
  rw [pyDiv_ok h, ok_bind, pyDiv_ok h, ok_bind]
  refine ⟨_, rfl, ?_, rfl⟩
  obtain ⟨N, hN⟩ : ∃ N, N = w.normSq := ⟨_, rfl⟩
  rw [← hN] at h ⊢
  rw [normSq_real]
  field_simp
  rw [hN, normSq_real, normSq_real]
  ring

theorem phasor_ne {r : Cx ℝ} (h : r.normSq < 1) (q : ℝ) : 0 < (Cx.add ⟨Real.cos q, -(Real.sin q)⟩ r).normSq := by
  refine lt_of_le_of_ne (normSq_nonneg _) (fun e => ?_)
  rw [normSq_real] at e h
  simp only [Cx.add] at e
  have h1 : Real.cos q + r.re = 0 := by nlinarith [mul_self_nonneg (Real.cos q + r.re), mul_self_nonneg (-Real.sin q + r.im)]
  have h2 : -Real.sin q + r.im = 0 := by nlinarith [mul_self_nonneg (Real.cos q + r.re), mul_self_nonneg (-Real.sin q + r.im)]
  have e1 : r.re = -Real.cos q := by linarith
  have e2 : r.im = Real.sin q := by linarith
  rw [e1, e2] at h
  nlinarith [Real.sin_sq_add_cos_sq q]

/-- The reflected ray: the coefficient has modulus below one. -/
theorem alosRay_ok {p : PropSt ℝ} {d : ℝ} (h0 : 0 < p.he.x0) (h1 : 0 < p.he.x1) (hw : 0 < p.wn) (hdh : 0 ≤ p.dh)
    (hz : 0 < p.zgnd.re) (hd : 0 < d) (hne : ¬ (p.zgnd.re = spsR p.he d ∧ p.zgnd.im = 0)) :
    ∃ r q, alosRay d p = .ok (r, q) ∧ r.normSq < 1 := by
  obtain ⟨sp, sl⟩ := spsR_range h0 h1 hd
  have hdd := dhAt_nonneg hdh hd.le
  unfold alosRay
  simp only [lit_eq, npow_real, pyMin_real, rexp]
  change ∃ r q, (do
    let pw ← pyPow (dhAt p.dh d / 16.0) (0.25 : ℝ)
    let sq ← mathSqrt (d ^ 2 + (p.he.x0 + p.he.x1) ^ 2)
    let sps ← (p.he.x0 + p.he.x1) /! sq
    let r ← Cx.div (Cx.sub ⟨sps, 0.0⟩ p.zgnd) (Cx.add ⟨sps, 0.0⟩ p.zgnd)
    let r := r.smul (Real.exp (-(min 10.0 (p.wn * (0.78 * dhAt p.dh d * Real.exp (-pw)) * sps))))
    let r ← if r.abs ^ 2 < 0.25 ∨ r.abs ^ 2 < sps then do
        let x ← sps /! (r.abs ^ 2)
        let t ← mathSqrt x
        pure (r.smul t)
      else pure r
    let q ← (p.wn * p.he.x0 * p.he.x1 * 2.0) /! d
    let q ← if 1.57 < q then do
        let x ← (2.4649 : ℝ) /! q
        pure (3.14 - x)
      else pure q
    pure (r, q)) = .ok (r, q) ∧ r.normSq < 1
  rw [pyPow_ok (by positivity) (by intro h; exact absurd h.2 (by norm_num)), ok_bind, mathSqrt_ok (by positivity), ok_bind,
    pyDiv_ok (by positivity), ok_bind]
  rw [show (p.he.x0 + p.he.x1) / Real.sqrt (d ^ 2 + (p.he.x0 + p.he.x1) ^ 2) = spsR p.he d from rfl]
  have hN : (Cx.add ⟨spsR p.he d, 0.0⟩ p.zgnd).normSq ≠ 0 := by
    rw [normSq_real]; simp only [Cx.add]
    have : 0 < spsR p.he d + p.zgnd.re := by linarith
    nlinarith [mul_self_nonneg (0.0 + p.zgnd.im)]
  obtain ⟨R, hR, hRn, -⟩ := cxdiv_ok (z := Cx.sub ⟨spsR p.he d, 0.0⟩ p.zgnd) hN
  rw [hR, ok_bind]
  have hNpos := lt_of_le_of_ne (normSq_nonneg _) hN.symm
  have hR1 : R.normSq < 1 := by
    by_contra hc
    have := not_lt.1 hc
    have e : (Cx.add ⟨spsR p.he d, 0.0⟩ p.zgnd).normSq ≤ (Cx.sub ⟨spsR p.he d, 0.0⟩ p.zgnd).normSq := by nlinarith
    simp only [normSq_real, Cx.add, Cx.sub, zero_lit] at e
    nlinarith [mul_pos sp hz]
  have hR0 : 0 < R.normSq := by
    refine lt_of_le_of_ne (normSq_nonneg _) (fun e => hne ?_)
    rw [← e, zero_mul] at hRn
    simp only [normSq_real, Cx.sub, zero_lit] at hRn
    constructor
    · nlinarith [mul_self_nonneg (spsR p.he d - p.zgnd.re), mul_self_nonneg (0 - p.zgnd.im)]
    · nlinarith [mul_self_nonneg (spsR p.he d - p.zgnd.re), mul_self_nonneg (0 - p.zgnd.im)]
  have hE : ∃ E, E = Real.exp (-(min 10.0 (p.wn * (0.78 * dhAt p.dh d * Real.exp (-(dhAt p.dh d / 16.0) ^ (0.25 : ℝ))) * spsR p.he d))) ∧
      0 < E ∧ E ≤ 1 := by
    refine ⟨_, rfl, Real.exp_pos _, Real.exp_le_one_iff.2 ?_⟩
    rw [neg_nonpos]
    exact le_min (by norm_num) (by positivity)
  obtain ⟨E, hEd, hE0, hE1⟩ := hE
  rw [← hEd]
  dsimp only
  have hQ : p.wn * p.he.x0 * p.he.x1 * 2.0 / d ≠ 0 := by positivity
  have hEn : (R.smul E).normSq < 1 := by
    rw [normSq_smul]
    have : E ^ 2 ≤ 1 := by nlinarith
    nlinarith
  have hEp : 0 < (R.smul E).normSq := by rw [normSq_smul]; positivity
  have hS : ((R.smul E).smul (Real.sqrt (spsR p.he d / (R.smul E).normSq))).normSq < 1 := by
    rw [normSq_smul, Real.sq_sqrt (by positivity), div_mul_cancel₀ _ hEp.ne']
    exact sl
  rw [abs_sq]
  by_cases c1 : (R.smul E).normSq < 0.25 ∨ (R.smul E).normSq < spsR p.he d
  · rw [if_pos c1, pyDiv_ok hEp.ne', ok_bind, mathSqrt_ok (by positivity), ok_bind, pure_bind', pyDiv_ok hd.ne', ok_bind]
    by_cases c2 : 1.57 < p.wn * p.he.x0 * p.he.x1 * 2.0 / d
    · rw [if_pos c2, pyDiv_ok hQ]; exact ⟨_, _, rfl, hS⟩
    · rw [if_neg c2]; exact ⟨_, _, rfl, hS⟩
  · rw [if_neg c1, pure_bind', pyDiv_ok hd.ne', ok_bind]
    by_cases c2 : 1.57 < p.wn * p.he.x0 * p.he.x1 * 2.0 / d
    · rw [if_pos c2, pyDiv_ok hQ]; exact ⟨_, _, rfl, hEn⟩
    · rw [if_neg c2]; exact ⟨_, _, rfl, hEn⟩

/-- The plane-earth attenuation exists for every positive distance unless the ground impedance equals the grazing sine. -/
theorem alosPlane_ok {p : PropSt ℝ} {d : ℝ} (h0 : 0 < p.he.x0) (h1 : 0 < p.he.x1) (hw : 0 < p.wn) (hdh : 0 ≤ p.dh)
    (hz : 0 < p.zgnd.re) (hd : 0 < d) (hne : ¬ (p.zgnd.re = spsR p.he d ∧ p.zgnd.im = 0)) : ∃ a, alosPlane d p = .ok a := by
  obtain ⟨r, q, hr, hr1⟩ := alosRay_ok h0 h1 hw hdh hz hd hne
  unfold alosPlane
  rw [hr, ok_bind]
  dsimp only
  rw [npow_real, abs_sq, npLog_ok (by exact phasor_ne hr1 q)]
  exact ⟨_, rfl⟩

theorem alos_ok {p : PropSt ℝ} {d : ℝ} {l : DiffLine ℝ} (hl : p.line = some l) (h0 : 0 < p.he.x0) (h1 : 0 < p.he.x1) (hw : 0 < p.wn)
    (hdh : 0 ≤ p.dh) (hz : 0 < p.zgnd.re) (hd : 0 < d) (hne : ¬ (p.zgnd.re = spsR p.he d ∧ p.zgnd.im = 0)) :
    ∃ pl, alosPlane d p = .ok pl ∧ alos d p = .ok ((pl - (l.emd * d + l.aed)) * l.wis + (l.emd * d + l.aed)) := by
  obtain ⟨pl, h⟩ := alosPlane_ok h0 h1 hw hdh hz hd hne
  refine ⟨pl, h, ?_⟩
  unfold alos alosExt
  rw [hl, h]
  rfl

/-! ### the fit -/

/-- Strict concavity of the logarithm as used by the fit: the divisor is positive for `0 < d0 < d1 < d2`. -/
theorem fit_div_pos {d0 d1 d2 : ℝ} (h0 : 0 < d0) (h1 : d0 < d1) (h2 : d1 < d2) :
    0 < (d2 - d0) * Real.log (d1 / d0) - (d1 - d0) * Real.log (d2 / d0) := by
  have hd1 : 0 < d1 := h0.trans h1
  have hd2 : 0 < d2 := hd1.trans h2
  -- secant slopes of the concave logarithm
  have c := strictConcaveOn_log_Ioi.slope_anti_adjacent (x := d0) (y := d1) (z := d2) h0 hd2 h1 h2
  rw [Real.log_div hd1.ne' h0.ne', Real.log_div hd2.ne' h0.ne']
  rw [div_lt_div_iff₀ (by linarith) (by linarith)] at c
  nlinarith

theorem fit_div_ne {d0 d1 d2 : ℝ} (h0 : 0 < d0) (h1 : d0 < d1) (h2 : 0 < d2) (h02 : d2 ≠ d0) (h12 : d2 ≠ d1) :
    (d2 - d0) * Real.log (d1 / d0) - (d1 - d0) * Real.log (d2 / d0) ≠ 0 := by
  have hd1 : 0 < d1 := h0.trans h1
  rcases lt_trichotomy d1 d2 with h | h | h
  · exact (fit_div_pos h0 h1 h).ne'
  · exact absurd h.symm h12
  · rcases lt_or_gt_of_ne h02 with h' | h'
    · -- d2 < d0 < d1
      have c := strictConcaveOn_log_Ioi.slope_anti_adjacent (x := d2) (y := d0) (z := d1) h2 hd1 h' h1
      rw [Real.log_div hd1.ne' h0.ne', Real.log_div h2.ne' h0.ne']
      rw [div_lt_div_iff₀ (by linarith) (by linarith)] at c
      intro e; nlinarith
    · have := fit_div_pos h0 h' h
      intro e; linarith

end Itm
