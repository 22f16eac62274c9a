import Verif.Lemmas.Sort
import Verif.Lemmas.Round
import Verif.Model.Terrain
import Mathlib.Algebra.Order.Floor.Semiring
import Mathlib.Tactic.FieldSimp

/-! Percentiles by linear interpolation of the order statistics. -/

namespace Itm

/-- The ascending sort used by `np.percentile`. -/
noncomputable def sortAsc (a : List ℝ) : List ℝ := a.mergeSort (fun x y => decide (x ≤ y))

theorem sortAsc_perm (a : List ℝ) : (sortAsc a).Perm a := List.mergeSort_perm _ _

theorem sortAsc_length (a : List ℝ) : (sortAsc a).length = a.length := (sortAsc_perm a).length_eq

theorem sortAsc_pairwise (a : List ℝ) : (sortAsc a).Pairwise (fun x y => x ≤ y) := by
  have h := List.pairwise_mergeSort (le := fun x y : ℝ => decide (x ≤ y))
    (by intro x y z; simp only [decide_eq_true_eq]; intro h1 h2; exact le_trans h1 h2)
    (by intro x y; simp only [Bool.or_eq_true, decide_eq_true_eq]; exact le_total x y) a
  exact h.imp (by intro x y hxy; simpa using hxy)

theorem sortAsc_unique {a s : List ℝ} (hp : s.Perm a) (h : s.Pairwise (fun x y => x ≤ y)) : sortAsc a = s :=
  ((sortAsc_perm a).trans hp.symm).eq_of_pairwise (fun _ _ _ _ h1 h2 => le_antisymm h1 h2) (sortAsc_pairwise a) h

theorem sortAsc_congr {a b : List ℝ} (h : a.Perm b) : sortAsc a = sortAsc b :=
  sortAsc_unique ((sortAsc_perm b).trans h.symm) (sortAsc_pairwise b)

theorem sortAsc_map {a : List ℝ} {f : ℝ → ℝ} (hf : Monotone f) : sortAsc (a.map f) = (sortAsc a).map f :=
  sortAsc_unique ((sortAsc_perm a).map f) ((sortAsc_pairwise a).map f (fun _ _ h => hf h))

/-- At least `k + 1` entries are at most the entry of index `k`. -/
theorem count_le {s : List ℝ} (hs : s.Pairwise (fun x y => x ≤ y)) {k : ℕ} (hk : k < s.length) {a : ℝ} (h : s[k] ≤ a) :
    k + 1 ≤ s.countP (fun x => decide (x ≤ a)) := by
  have hpw := List.pairwise_iff_getElem.1 hs
  have h1 : (s.take (k + 1)).countP (fun x => decide (x ≤ a)) = (s.take (k + 1)).length := by
    rw [List.countP_eq_length]
    intro x hx
    obtain ⟨i, hi, rfl⟩ := List.mem_iff_getElem.1 hx
    rw [List.getElem_take]
    rw [List.length_take] at hi
    simp only [decide_eq_true_eq]
    rcases Nat.lt_or_ge i k with h' | h'
    · exact (hpw i k (by omega) hk h').trans h
    · have : i = k := by omega
      subst this; exact h
  rw [List.length_take] at h1
  have h2 : s.countP (fun x => decide (x ≤ a)) = (s.take (k+1)).countP (fun x => decide (x ≤ a)) +
      (s.drop (k+1)).countP (fun x => decide (x ≤ a)) := by
    rw [← List.countP_append, List.take_append_drop]
  omega

/-- At most `k` entries are below the entry of index `k`. -/
theorem count_lt {s : List ℝ} (hs : s.Pairwise (fun x y => x ≤ y)) {k : ℕ} (hk : k < s.length) {a : ℝ} (h : a ≤ s[k]) :
    s.countP (fun x => decide (x < a)) ≤ k := by
  have hpw := List.pairwise_iff_getElem.1 hs
  have h0 : (s.drop k).countP (fun x => decide (x < a)) = 0 := by
    rw [List.countP_eq_zero]
    intro x hx
    obtain ⟨i, hi, rfl⟩ := List.mem_iff_getElem.1 hx
    rw [List.length_drop] at hi
    rw [List.getElem_drop]
    simp only [decide_eq_true_eq, not_lt]
    rcases Nat.eq_zero_or_pos i with rfl | hpos
    · simpa using h
    · exact h.trans (hpw k (k + i) hk (by omega) (by omega))
  have h1 := List.countP_le_length (p := fun x => decide (x < a)) (l := s.take k)
  rw [List.length_take] at h1
  have h2 : s.countP (fun x => decide (x < a)) = (s.take k).countP (fun x => decide (x < a)) +
      (s.drop k).countP (fun x => decide (x < a)) := by
    rw [← List.countP_append, List.take_append_drop]
  omega

theorem count_split (s : List ℝ) (a : ℝ) : s.countP (fun x => decide (x < a)) + s.countP (fun x => decide (a ≤ x)) = s.length := by
  induction s with
  | nil => rfl
  | cons x s ih =>
    rw [List.countP_cons, List.countP_cons, List.length_cons]
    by_cases h : x < a
    · simp only [h, not_le.2 h, decide_true, decide_false, if_true, Bool.false_eq_true, if_false]; omega
    · simp only [h, not_lt.1 h, decide_true, decide_false, if_true, Bool.false_eq_true, if_false]; omega

/-! ### interpolation -/

/-- Linear interpolation in a sequence, the index clipped at `m`. -/
noncomputable def lerp (g : ℕ → ℝ) (m : ℕ) (v : ℝ) : ℝ :=
  g ⌊v⌋₊ + (g (min (⌊v⌋₊ + 1) m) - g ⌊v⌋₊) * (v - ⌊v⌋₊)

section
variable {g : ℕ → ℝ} {m : ℕ}

theorem floor_le_of {v : ℝ} (h1 : v ≤ m) : ⌊v⌋₊ ≤ m := by
  by_cases h : 0 ≤ v
  · exact Nat.floor_le_of_le h1
  · rw [Nat.floor_of_nonpos (by linarith)]; omega

theorem lerp_bounds (hg : ∀ i j, i ≤ j → j ≤ m → g i ≤ g j) {v : ℝ} (h0 : 0 ≤ v) (h1 : v ≤ m) :
    g ⌊v⌋₊ ≤ lerp g m v ∧ lerp g m v ≤ g (min (⌊v⌋₊ + 1) m) := by
  have hf := floor_le_of h1
  have hm := hg ⌊v⌋₊ (min (⌊v⌋₊ + 1) m) (by omega) (by omega)
  have a := Nat.floor_le h0
  have b := Nat.lt_floor_add_one v
  unfold lerp
  constructor <;> nlinarith

theorem lerp_int {v : ℝ} (h : v = ⌊v⌋₊) : lerp g m v = g ⌊v⌋₊ := by
  unfold lerp
  rw [← h, sub_self, mul_zero, add_zero]

theorem lerp_mono (hg : ∀ i j, i ≤ j → j ≤ m → g i ≤ g j) {v w : ℝ} (h0 : 0 ≤ v) (h : v ≤ w) (h1 : w ≤ m) : lerp g m v ≤ lerp g m w := by
  have hvw := Nat.floor_mono h
  have hf := floor_le_of h1
  rcases Nat.lt_or_ge ⌊v⌋₊ ⌊w⌋₊ with hl | hl
  · refine (lerp_bounds hg h0 (h.trans h1)).2.trans (le_trans ?_ (lerp_bounds hg (h0.trans h) h1).1)
    exact hg _ _ (by omega) hf
  · have e : ⌊w⌋₊ = ⌊v⌋₊ := by omega
    unfold lerp
    rw [e]
    have hm := hg ⌊v⌋₊ (min (⌊v⌋₊ + 1) m) (by omega) (by omega)
    nlinarith

theorem lerp_affine (a b : ℝ) (v : ℝ) : lerp (fun i => a * g i + b) m v = a * lerp g m v + b := by
  unfold lerp; ring
end

/-- The order statistics as a sequence. -/
noncomputable def orderStat (x : List ℝ) (i : ℕ) : ℝ := (sortAsc x).getD i 0

theorem orderStat_get {x : List ℝ} {i : ℕ} (h : i < (sortAsc x).length) : orderStat x i = (sortAsc x)[i] := by
  unfold orderStat
  simp [List.getD, h]

theorem orderStat_mono (x : List ℝ) : ∀ i j, i ≤ j → j ≤ x.length - 1 → orderStat x i ≤ orderStat x j := by
  intro i j hij hj
  rcases Nat.eq_zero_or_pos x.length with h | h
  · have e : i = j := by omega
    rw [e]
  · have l := sortAsc_length x
    rw [orderStat_get (by omega), orderStat_get (by omega)]
    rcases Nat.eq_or_lt_of_le hij with rfl | hlt
    · exact le_refl _
    · exact List.pairwise_iff_getElem.1 (sortAsc_pairwise x) i j _ _ hlt

/-- What `np.percentile` returns. -/
noncomputable def pct (x : List ℝ) (q : ℝ) : ℝ := lerp (orderStat x) (x.length - 1) (q / 100 * (x.length - 1 : ℕ))

theorem npPercentile_eq {x : List ℝ} (hx : x ≠ []) {q : ℝ} (h0 : 0 ≤ q) (h1 : q ≤ 100) : npPercentile x q = .ok (pct x q) := by
  have hl : 0 < x.length := List.length_pos_iff.2 hx
  have l := sortAsc_length x
  obtain ⟨m, hm⟩ : ∃ m, x.length = m + 1 := ⟨x.length - 1, by omega⟩
  have hv0 : 0 ≤ q / 100 * (m : ℝ) := by positivity
  have hv1 : q / 100 * (m : ℝ) ≤ m := by
    have : (0:ℝ) ≤ m := Nat.cast_nonneg m
    have : q / 100 ≤ 1 := by rw [div_le_one (by norm_num)]; exact h1
    nlinarith
  unfold npPercentile
  dsimp only
  rw [show x.mergeSort (fun a b => decide (a ≤ b)) = sortAsc x from rfl]
  have ev : q / 100.0 * (PyNum.ofInt (((sortAsc x).length : ℤ) - 1) : ℝ) = q / 100 * (m : ℝ) := by
    rw [rofInt, l, hm]
    push_cast
    norm_num
  rw [ev]
  have ef : (PyNum.floor (q / 100 * (m : ℝ)) : ℤ) = (⌊q / 100 * (m : ℝ)⌋₊ : ℤ) := by
    rw [rfloor, Int.natCast_floor_eq_floor hv0]
  have hf := floor_le_of (m := m) hv1
  rw [ef]
  generalize hk : ⌊q / 100 * (m : ℝ)⌋₊ = k at *
  rw [pyGet_nonneg (by omega) (by omega), ok_bind, pyGet_nonneg (by omega) (by omega), ok_bind, pure_ok, ok_inj]
  unfold pct lerp
  rw [hm, Nat.add_sub_cancel, hk, rofInt, orderStat_get (by omega), orderStat_get (by omega)]
  have e1 : (k : ℤ).toNat = k := rfl
  have e2 : (min ((k : ℤ) + 1) (((sortAsc x).length : ℤ) - 1)).toNat = min (k + 1) m := by omega
  simp only [e1, e2]
  norm_num

theorem pct_nil (q : ℝ) : npPercentile ([] : List ℝ) q = .error .indexError := by
  unfold npPercentile
  dsimp only
  rw [show ([] : List ℝ).mergeSort (fun a b => decide (a ≤ b)) = [] from by simp]
  rw [pyGet_out (l := ([] : List ℝ)) (by simp; omega)]
  rfl

end Itm
