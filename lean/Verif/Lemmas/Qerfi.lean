import Verif.Lemmas.Round
import Verif.Model.Misc
import Mathlib.Analysis.SpecialFunctions.Log.Deriv
import Mathlib.Analysis.Complex.ExponentialBounds

/-! Closed form and shape of the Hastings rational approximation of `qerfi`. -/

namespace Itm

/-- `r - N(r)/D(r)` with the constants of `qerfi.py`. -/
noncomputable def dev (r : ℝ) : ℝ :=
  r - ((0.010328 * r + 0.802853) * r + 2.515516698) / (((0.001308 * r + 0.189269) * r + 1.432788) * r + 1)

theorem dev_mono {r s : ℝ} (hr : 0 ≤ r) (h : r ≤ s) : dev r ≤ dev s := by
  have hs : 0 ≤ s := le_trans hr h
  have hd : ∀ x : ℝ, 0 ≤ x → 0 < ((0.001308 * x + 0.189269) * x + 1.432788) * x + 1 := by
    intro x hx; positivity
  have key : ((0.010328 * s + 0.802853) * s + 2.515516698) / (((0.001308 * s + 0.189269) * s + 1.432788) * s + 1)
      ≤ ((0.010328 * r + 0.802853) * r + 2.515516698) / (((0.001308 * r + 0.189269) * r + 1.432788) * r + 1) := by
    rw [div_le_div_iff₀ (hd s hs) (hd r hr)]
    have e : 0 ≤ s - r := by linarith
    have h1 : 0 ≤ (s - r) * r := mul_nonneg e hr
    have h2 : 0 ≤ (s - r) * s := mul_nonneg e hs
    have h3 : 0 ≤ (s - r) * (r * s) := mul_nonneg e (mul_nonneg hr hs)
    have h4 : 0 ≤ (s - r) * (r * r) := mul_nonneg e (mul_nonneg hr hr)
    have h5 : 0 ≤ (s - r) * (s * s) := mul_nonneg e (mul_nonneg hs hs)
    have h6 : 0 ≤ (s - r) * (r * s * r) := mul_nonneg e (by positivity)
    have h7 : 0 ≤ (s - r) * (r * s * s) := mul_nonneg e (by positivity)
    have h8 : 0 ≤ (s - r) * (r * s * (r * s)) := mul_nonneg e (by positivity)
    linarith
  unfold dev
  linarith

/-- The clipped tail probability of `qerfi.py` 33. -/
noncomputable def clipq (q : ℝ) : ℝ := max (0.5 - |0.5 - q|) 0.000001

theorem clipq_pos (q : ℝ) : 0 < clipq q := lt_of_lt_of_le (by norm_num) (le_max_right _ _)

theorem clipq_le_half (q : ℝ) : clipq q ≤ 1 / 2 := by
  apply max_le
  · have := abs_nonneg (0.5 - q); norm_num
  · norm_num

/-- Unrounded deviate of the tail probability `t`. -/
noncomputable def devt (t : ℝ) : ℝ := dev (Real.sqrt (-2 * Real.log t))

theorem devt_anti {s t : ℝ} (hs : 0 < s) (h : s ≤ t) : devt t ≤ devt s := by
  apply dev_mono (Real.sqrt_nonneg _)
  apply Real.sqrt_le_sqrt
  have := Real.log_le_log hs h
  linarith

theorem qerfi1_eq (q : ℝ) :
    qerfi1 q = .ok (PyNum.round4 (if 0.5 - q < 0 then -devt (clipq q) else devt (clipq q))) := by
  have hl : Real.log (clipq q) ≤ 0 :=
    Real.log_nonpos (clipq_pos q).le (le_trans (clipq_le_half q) (by norm_num))
  have h2 : (2.0 : ℝ) = 2 := by norm_num
  have hsq : (0 : ℝ) ≤ -(2 * Real.log (clipq q)) := by linarith
  unfold qerfi1
  simp only [lit_eq, zero_lit, rabs, pyMax_real]
  change (do
    let l ← npLog (clipq q)
    let r ← mathSqrt (-2.0 * l)
    let f ← (((0.010328 : ℝ) * r + 0.802853) * r + 2.515516698) /!
      (((0.001308 * r + 0.189269) * r + 1.432788) * r + 1.0)
    pure (PyNum.round4 (if 0.5 - q < 0 then -(r - f) else r - f)) : Py ℝ) = _
  rw [npLog_ok (clipq_pos q), ok_bind]
  have e : (-2.0 : ℝ) * Real.log (clipq q) = -2 * Real.log (clipq q) := by norm_num
  rw [e, mathSqrt_ok (by linarith), ok_bind]
  set r := Real.sqrt (-2 * Real.log (clipq q)) with hr
  have hr0 : 0 ≤ r := Real.sqrt_nonneg _
  rw [pyDiv_ok (by positivity), ok_bind, pure_ok]
  have e2 : r - ((0.010328 * r + 0.802853) * r + 2.515516698) /
      (((0.001308 * r + 0.189269) * r + 1.432788) * r + 1.0) = devt (clipq q) := by
    unfold devt dev; rw [← hr]; norm_num
  rw [e2]

theorem devt_half : |devt (1 / 2)| < 0.000001 := by
  have l1 := Real.log_two_gt_d9
  have l2 := Real.log_two_lt_d9
  have e : -2 * Real.log (1 / 2) = 2 * Real.log 2 := by
    rw [one_div, Real.log_inv]; ring
  unfold devt
  rw [e]
  set r := Real.sqrt (2 * Real.log 2) with hr
  have r1 : (1.1774100 : ℝ) ≤ r := by
    apply Real.le_sqrt_of_sq_le; norm_num at *; linarith
  have r2 : r ≤ 1.1774101 := by
    rw [hr, Real.sqrt_le_iff]; norm_num at *; linarith
  have m1 := dev_mono (by norm_num) r1
  have m2 := dev_mono (by linarith) r2
  have b1 : (-0.000001 : ℝ) < dev 1.1774100 := by unfold dev; norm_num
  have b2 : dev 1.1774101 < 0.000001 := by unfold dev; norm_num
  rw [abs_lt]
  constructor
  · norm_num at *; linarith
  · norm_num at *; linarith

end Itm
