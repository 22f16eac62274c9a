import Verif.Lemmas.Basic
import Verif.Spec.Order

/-! Sorted lists and ranks. -/

namespace Itm
open Spec

/-- The descending sort used by `qtile`. -/
noncomputable def sortDesc (a : List ℝ) : List ℝ := a.mergeSort (fun x y => decide (y ≤ x))

theorem sortDesc_perm (a : List ℝ) : (sortDesc a).Perm a := List.mergeSort_perm _ _

theorem sortDesc_length (a : List ℝ) : (sortDesc a).length = a.length := (sortDesc_perm a).length_eq

theorem sortDesc_pairwise (a : List ℝ) : (sortDesc a).Pairwise (fun x y => y ≤ x) := by
  have h := List.pairwise_mergeSort (le := fun x y : ℝ => decide (y ≤ x))
    (by intro x y z; simp only [decide_eq_true_eq]; intro h1 h2; exact le_trans h2 h1)
    (by intro x y; simp only [Bool.or_eq_true, decide_eq_true_eq]; exact le_total y x) a
  exact h.imp (by intro x y hxy; simpa using hxy)

theorem sortDesc_congr {a b : List ℝ} (h : a.Perm b) : sortDesc a = sortDesc b := by
  have hp : (sortDesc a).Perm (sortDesc b) := (sortDesc_perm a).trans (h.trans (sortDesc_perm b).symm)
  exact hp.eq_of_pairwise (fun _ _ _ _ h1 h2 => le_antisymm h2 h1) (sortDesc_pairwise a) (sortDesc_pairwise b)

theorem isRank_of_sorted (a s : List ℝ) (hp : s.Perm a) (hpw : s.Pairwise (fun x y => y ≤ x)) (k : ℕ)
    (hk : k < s.length) : IsRank a k s[k] := by
  have hpw := List.pairwise_iff_getElem.1 hpw
  refine ⟨hp.mem_iff.1 (List.getElem_mem hk), ?_, ?_⟩
  · have h0 : (s.drop k).countP (fun x => decide (s[k] < x)) = 0 := by
      rw [List.countP_eq_zero]
      intro x hx
      obtain ⟨i, hi, rfl⟩ := List.mem_iff_getElem.1 hx
      rw [List.length_drop] at hi
      rw [List.getElem_drop]
      simp only [decide_eq_true_eq, not_lt]
      rcases Nat.eq_zero_or_pos i with rfl | hpos
      · simp
      · exact hpw k (k + i) hk (by omega) (by omega)
    have h1 := List.countP_le_length (p := fun x => decide (s[k] < x)) (l := s.take k)
    rw [List.length_take] at h1
    have h2 : s.countP (fun x => decide (s[k] < x)) = (s.take k).countP (fun x => decide (s[k] < x)) +
        (s.drop k).countP (fun x => decide (s[k] < x)) := by
      rw [← List.countP_append, List.take_append_drop]
    rw [← hp.countP_eq]
    omega
  · have h1 : (s.take (k + 1)).countP (fun x => decide (s[k] ≤ x)) = (s.take (k + 1)).length := by
      rw [List.countP_eq_length]
      intro x hx
      obtain ⟨i, hi, rfl⟩ := List.mem_iff_getElem.1 hx
      rw [List.getElem_take]
      rw [List.length_take] at hi
      simp only [decide_eq_true_eq]
      rcases Nat.lt_or_ge i k with h | h
      · exact hpw i k (by omega) hk h
      · have : i = k := by omega
        subst this; exact le_refl _
    rw [List.length_take] at h1
    have h2 : s.countP (fun x => decide (s[k] ≤ x)) = (s.take (k+1)).countP (fun x => decide (s[k] ≤ x)) +
        (s.drop (k+1)).countP (fun x => decide (s[k] ≤ x)) := by
      rw [← List.countP_append, List.take_append_drop]
    rw [← hp.countP_eq]
    omega

theorem isRank_sortDesc (a : List ℝ) (k : ℕ) (hk : k < (sortDesc a).length) :
    IsRank a k (sortDesc a)[k] :=
  isRank_of_sorted a _ (sortDesc_perm a) (sortDesc_pairwise a) k hk

end Itm
