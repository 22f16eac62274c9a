import Verif.Model.Misc
import Verif.Lemmas.Sort

/-! C01: `qtile` is the order statistic. -/

namespace Itm.Props
open Itm Spec

theorem qtile_eq (a : List ℝ) (ir : ℤ) : qtile a ir = pyGet (sortDesc a) ir := rfl

/-- For an index inside the list `qtile` returns the value of that rank, counted from the largest. -/
theorem C01_qtile_rank (a : List ℝ) (ir : ℕ) (h : ir < a.length) :
    ∃ v, qtile a ir = .ok v ∧ IsRank a ir v := by
  have h' : ir < (sortDesc a).length := by rw [sortDesc_length]; exact h
  refine ⟨(sortDesc a)[ir], ?_, isRank_sortDesc a ir h'⟩
  rw [qtile_eq, pyGet_nonneg (by omega) (by omega)]
  simp

/-- Negative indices count from the smallest. -/
theorem C01_qtile_rank_neg (a : List ℝ) (k : ℕ) (h : k < a.length) :
    ∃ v, qtile a (-((a.length - k : ℕ) : ℤ)) = .ok v ∧ IsRank a k v := by
  have h' : k < (sortDesc a).length := by rw [sortDesc_length]; exact h
  refine ⟨(sortDesc a)[k], ?_, isRank_sortDesc a k h'⟩
  have hl := sortDesc_length a
  rw [qtile_eq, pyGet_neg (by omega) (by omega)]
  have : (-((a.length - k : ℕ) : ℤ) + ((sortDesc a).length : ℤ)).toNat = k := by omega
  simp only [this]

/-- The answer does not depend on the order of the entries. -/
theorem C01_qtile_perm (a b : List ℝ) (h : a.Perm b) (ir : ℤ) : qtile a ir = qtile b ir := by
  rw [qtile_eq, qtile_eq, sortDesc_congr h]

/-- `IndexError` is raised exactly for indices outside `[-len(a), len(a))`, and nothing else is raised. -/
theorem C01_qtile_error (a : List ℝ) (ir : ℤ) (e : PyErr) :
    qtile a ir = .error e ↔ e = .indexError ∧ (ir < -(a.length : ℤ) ∨ (a.length : ℤ) ≤ ir) := by
  have hl := sortDesc_length a
  rw [qtile_eq]
  by_cases h : ir < -(a.length : ℤ) ∨ (a.length : ℤ) ≤ ir
  · rw [pyGet_out (by omega)]; simp [h, eq_comm]
  · by_cases h0 : ir < 0
    · rw [pyGet_neg h0 (by omega)]; simp [h]
    · rw [pyGet_nonneg (by omega) (by omega)]; simp [h]

/-- Non-vacuity: ties and unsorted input. -/
example : IsRank [3, 1, 3, 2] 1 3 := by
  refine ⟨by simp, ?_, ?_⟩ <;> norm_num [List.countP_cons]

example : ∃ v, qtile ([3, 1, 3, 2] : List ℝ) 2 = .ok v ∧ v = 2 := by
  obtain ⟨v, hv, hr⟩ := C01_qtile_rank [3, 1, 3, 2] 2 (by simp)
  refine ⟨v, hv, hr.unique ⟨by simp, ?_, ?_⟩⟩ <;> simp [List.countP_cons] <;> norm_num

end Itm.Props
