import Mathlib.Data.Real.Basic
import Mathlib.Tactic.Linarith

/-! Order statistics, stated by counting. -/

namespace Itm.Spec

/-- `v` is the entry of rank `k` (0 = largest) of the list `a`: it occurs in `a`, at most `k` entries are
strictly larger, and more than `k` entries are at least as large. -/
def IsRank (a : List ℝ) (k : ℕ) (v : ℝ) : Prop :=
  v ∈ a ∧ a.countP (fun x => decide (v < x)) ≤ k ∧ k < a.countP (fun x => decide (v ≤ x))

/-- Two values of the same rank coincide, so `IsRank` determines the value. -/
theorem IsRank.unique {a : List ℝ} {k : ℕ} {v w : ℝ} (hv : IsRank a k v) (hw : IsRank a k w) : v = w := by
  by_contra hne
  rcases lt_or_gt_of_ne hne with h | h
  · have : a.countP (fun x => decide (w ≤ x)) ≤ a.countP (fun x => decide (v < x)) :=
      List.countP_mono_left (by intro x _ hx; simp at *; linarith)
    have := hv.2.1; have := hw.2.2; omega
  · have : a.countP (fun x => decide (v ≤ x)) ≤ a.countP (fun x => decide (w < x)) :=
      List.countP_mono_left (by intro x _ hx; simp at *; linarith)
    have := hw.2.1; have := hv.2.2; omega

end Itm.Spec
