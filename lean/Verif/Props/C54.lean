import Verif.Lemmas.QerfAccuracy

/-! C54: how far `qerf` is from the tail of the normal distribution. -/

namespace Itm.Props

open Itm Spec

/-- On the whole line `qerf z` is within `1e-5` of the probability that a standard normal variable exceeds `z`. -/
theorem C54_qerf_accuracy (z : ℝ) : ∃ v, qerf z = .ok v ∧ |v - normalTail z| ≤ 1e-5 := by
  rw [qerf_eq]
  refine ⟨_, rfl, ?_⟩
  have h := tail_accuracy (abs_nonneg z)
  split_ifs with hz
  · have e : normalTail z = 1 - normalTail |z| := by
      rw [abs_of_neg hz, ← normalTail_compl, neg_neg]
    rw [e]
    rw [abs_le] at h ⊢
    constructor <;> linarith [h.1, h.2]
  · rw [abs_of_nonneg (not_lt.1 hz)] at h ⊢
    exact h.trans (by norm_num)

/-- From 5 deviations on the error is below `3.3e-7`, through the cut-off at 10. -/
theorem C54_qerf_accuracy_far (z : ℝ) (hz : 5 ≤ z) : ∃ v, qerf z = .ok v ∧ |v - normalTail z| ≤ 3.3e-7 := by
  rw [qerf_eq]
  refine ⟨_, rfl, ?_⟩
  rw [if_neg (by linarith), abs_of_nonneg (by linarith : (0 : ℝ) ≤ z)]
  by_cases h10 : 10 ≤ z
  · have e : tail z = 0 := by simp [tail, h10]
    have h2 := le_trans (normalTail_anti hz) normalTail_five
    have h4 := normalTail_nonneg z
    rw [e, abs_le]; constructor <;> linarith
  · have e : tail z = rawTail z := by simp [tail, h10, rawTail]
    rw [e]
    exact (err_five hz).trans (by norm_num)

/-- The claim is not about a constant: the normal tail is `1/2` at 0 and below `0.0015` at 3. -/
example : normalTail 0 = 1 / 2 ∧ normalTail 3 ≤ 1.49e-3 := ⟨normalTail_zero, normalTail_three⟩

example : (5 : ℝ) ≤ 7 := by norm_num

end Itm.Props
