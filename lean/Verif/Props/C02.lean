import Verif.Lemmas.Qerf

/-! C02, C03: `qerf` is an antitone probability with complements. -/

namespace Itm.Props
open Itm

/-- `qerf` never raises and returns a number in `[0, 1]`. -/
theorem C02_qerf_probability (z : ℝ) : ∃ v, qerf z = .ok v ∧ 0 ≤ v ∧ v ≤ 1 := by
  have h0 := tail_nonneg (abs_nonneg z)
  have h1 := tail_anti (le_refl 0) (abs_nonneg z)
  have h2 := tail_zero.2
  refine ⟨_, qerf_eq z, ?_, ?_⟩ <;> split_ifs <;> norm_num at * <;> linarith

/-- Complement rule. -/
theorem C02_qerf_complement (z : ℝ) (hz : z ≠ 0) :
    ∃ v w, qerf z = .ok v ∧ qerf (-z) = .ok w ∧ v + w = 1 := by
  refine ⟨_, _, qerf_eq z, qerf_eq (-z), ?_⟩
  rw [abs_neg]
  rcases lt_or_gt_of_ne hz with h | h
  · rw [if_pos h, if_neg (by linarith)]; ring
  · rw [if_neg (by linarith), if_pos (by linarith)]; ring

/-- Saturation: exactly 0 from 10 on, exactly 1 up to -10. -/
theorem C02_qerf_saturates (z : ℝ) : (10 ≤ z → qerf z = .ok 0) ∧ (z ≤ -10 → qerf z = .ok 1) := by
  constructor <;> intro h
  · rw [qerf_eq, if_neg (by linarith), tail, if_pos (by rw [abs_of_nonneg (by linarith)]; exact h)]
  · rw [qerf_eq, if_pos (by linarith), tail, if_pos (by rw [abs_of_nonpos (by linarith)]; linarith)]
    norm_num

/-- At 0 the value is one half up to 1e-8 (the polynomial misses it by about 5e-9). -/
theorem C02_qerf_zero : ∃ v, qerf (0 : ℝ) = .ok v ∧ |v - 1 / 2| < 1e-8 := by
  refine ⟨tail 0, by rw [qerf_eq]; simp, ?_⟩
  have := tail_zero
  rw [abs_lt]
  norm_num at *
  constructor <;> linarith [this.1, this.2]

/-- The exact complement rule fails at 0: the excluded point is really excluded. -/
theorem C02_qerf_zero_not_half : ∀ v, qerf (0 : ℝ) = .ok v → v ≠ 1 / 2 := by
  intro v hv
  rw [qerf_eq, if_neg (lt_irrefl 0), abs_zero] at hv
  have := tail_zero.2
  cases hv
  norm_num at *
  linarith

/-- `qerf` is antitone on the whole line, through the branch changes at 0 and ±10. -/
theorem C03_qerf_antitone (z1 z2 v1 v2 : ℝ) (h : z1 ≤ z2) (h1 : qerf z1 = .ok v1) (h2 : qerf z2 = .ok v2) :
    v2 ≤ v1 := by
  rw [qerf_eq, ok_inj] at h1 h2
  subst h1; subst h2
  have t0 := tail_zero.2
  have ha := tail_anti (le_refl 0) (abs_nonneg z1)
  have hb := tail_anti (le_refl 0) (abs_nonneg z2)
  norm_num at t0
  by_cases n2 : z2 < 0
  · have n1 : z1 < 0 := by linarith
    rw [if_pos n1, if_pos n2]
    have := tail_anti (abs_nonneg z2) (by rw [abs_of_neg n1, abs_of_neg n2]; linarith : |z2| ≤ |z1|)
    linarith
  · by_cases n1 : z1 < 0
    · rw [if_pos n1, if_neg n2]; linarith
    · rw [if_neg n1, if_neg n2]
      push Not at n1 n2
      exact tail_anti (abs_nonneg z1) (by rw [abs_of_nonneg n1, abs_of_nonneg n2]; exact h)

/-- Non-vacuity: two arguments on different sides of 0, both answered. -/
example : ∃ v1 v2, qerf (-1 : ℝ) = .ok v1 ∧ qerf (1 : ℝ) = .ok v2 ∧ v2 ≤ v1 ∧ v1 + v2 = 1 := by
  obtain ⟨v, w, hv, hw, h⟩ := C02_qerf_complement 1 (by norm_num)
  exact ⟨w, v, hw, hv, C03_qerf_antitone (-1) 1 w v (by norm_num) hw hv, by linarith⟩

end Itm.Props
