import Verif.PyReal
import Mathlib.Analysis.SpecialFunctions.Log.Deriv
import Mathlib.Analysis.Complex.ExponentialBounds

/-! Numeric bounds of logarithms through powers of two. -/

namespace Itm

theorem log_upper {y : ℝ} (n m : ℕ) (hn : 0 < n) (hy : 0 < y) (h : y ^ n ≤ 2 ^ m) : Real.log y ≤ m / n * 0.6931471808 := by
  have h1 := Real.log_le_log (by positivity) h
  rw [Real.log_pow, Real.log_pow] at h1
  have h2 := Real.log_two_lt_d9
  have hn' : (0 : ℝ) < n := by exact_mod_cast hn
  have hm' : (0 : ℝ) ≤ m := by positivity
  have h3 : (n : ℝ) * Real.log y ≤ m * 0.6931471808 := h1.trans (mul_le_mul_of_nonneg_left (by linarith) hm')
  rw [div_mul_eq_mul_div, le_div_iff₀ hn']
  linarith

theorem log_lower {y : ℝ} (n m : ℕ) (hn : 0 < n) (h : 2 ^ m ≤ y ^ n) : m / n * 0.6931471803 ≤ Real.log y := by
  have h1 := Real.log_le_log (by positivity) h
  rw [Real.log_pow, Real.log_pow] at h1
  have h2 := Real.log_two_gt_d9
  have hn' : (0 : ℝ) < n := by exact_mod_cast hn
  have hm' : (0 : ℝ) ≤ m := by positivity
  have h3 : (m : ℝ) * 0.6931471803 ≤ n * Real.log y := le_trans (mul_le_mul_of_nonneg_left (by linarith) hm') h1
  rw [div_mul_eq_mul_div, div_le_iff₀ hn']
  linarith

theorem log_576 : 1.7467 < Real.log 5.76 ∧ Real.log 5.76 < 1.7512 := by
  constructor
  · refine lt_of_lt_of_le ?_ (log_lower 25 63 (by norm_num) (by norm_num))
    norm_num
  · refine lt_of_le_of_lt (log_upper 19 48 (by norm_num) (by norm_num) (by norm_num)) ?_
    norm_num

theorem log_10k : 9.18 < Real.log 10000 ∧ Real.log 10000 < 9.2148 := by
  constructor
  · refine lt_of_lt_of_le ?_ (log_lower 4 53 (by norm_num) (by norm_num))
    norm_num
  · refine lt_of_le_of_lt (log_upper 17 226 (by norm_num) (by norm_num) (by norm_num)) ?_
    norm_num

set_option exponentiation.threshold 600 in
theorem log_70k : 11.1545 < Real.log 70000 ∧ Real.log 70000 < 11.27 := by
  constructor
  · refine lt_of_lt_of_le ?_ (log_lower 32 515 (by norm_num) (by norm_num))
    norm_num
  · refine lt_of_le_of_lt (log_upper 4 65 (by norm_num) (by norm_num) (by norm_num)) ?_
    norm_num

end Itm
