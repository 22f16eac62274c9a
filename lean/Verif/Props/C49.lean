import Verif.Lemmas.Percentile
import Verif.Spec.Decile

/-! C49–C51: the pure parts of the terrain module. -/

namespace Itm.Props
open Itm Itm.Spec

/-! ### C49 -/

theorem numSamples_eq {d : ℝ} (h : 0 ≤ d) :
    determineNumSamples d = .ok (roundHalfEven (600 - 1 / (1e-5 * d + 1 / 598))) := by
  unfold determineNumSamples
  dsimp only
  have e : (1e-5 * d + 1.0 / (600.0 - 2.0) : ℝ) = 1e-5 * d + 1 / 598 := by norm_num
  rw [e, pyDiv_ok (by positivity), ok_bind, pure_ok]
  congr 2
  rw [show (-1.0 : ℝ) = -1 by norm_num, show (600.0 : ℝ) = 600 by norm_num]
  ring

/-- **C49** Between 2 and 600 samples for every nonnegative distance. -/
theorem C49_range {d : ℝ} (h : 0 ≤ d) : ∃ n, determineNumSamples d = .ok n ∧ 2 ≤ n ∧ n ≤ 600 := by
  refine ⟨_, numSamples_eq h, ?_, ?_⟩
  · rw [← round_int 2]
    apply round_mono
    have : 1 / (1e-5 * d + 1 / 598) ≤ 598 := by
      rw [div_le_iff₀ (by positivity)]; nlinarith
    push_cast; linarith
  · rw [← round_int 600]
    apply round_mono
    have : 0 ≤ 1 / (1e-5 * d + 1 / 598) := by positivity
    push_cast; linarith

/-- **C49** Two samples at distance 0. -/
theorem C49_zero : determineNumSamples (0:ℝ) = .ok 2 := by
  rw [numSamples_eq (le_refl _)]
  rw [show (600 - 1 / (1e-5 * 0 + 1 / 598) : ℝ) = ((2:ℤ):ℝ) by norm_num, round_int]

/-- **C49** Never fewer samples on a longer path. -/
theorem C49_mono {d d' : ℝ} {n n' : Int} (h : 0 ≤ d) (hd : d ≤ d') (e : determineNumSamples d = .ok n) (e' : determineNumSamples d' = .ok n') : n ≤ n' := by
  rw [numSamples_eq h, ok_inj] at e
  rw [numSamples_eq (h.trans hd), ok_inj] at e'
  rw [← e, ← e']
  apply round_mono
  have : 1 / (1e-5 * d' + 1 / 598) ≤ 1 / (1e-5 * d + 1 / 598) :=
    one_div_le_one_div_of_le (by positivity) (by linarith)
  linarith

/-- **C49** The limit of 600 samples is reached exactly from `119 500 000 / 598 = 199 832.8` metres on. -/
theorem C49_full {d : ℝ} (h : 0 ≤ d) : determineNumSamples d = .ok 600 ↔ 2 ≤ 1e-5 * d + 1 / 598 := by
  rw [numSamples_eq h, ok_inj]
  obtain ⟨y, hy⟩ : ∃ y, y = 1e-5 * d + 1 / 598 := ⟨_, rfl⟩
  have hy0 : 0 < y := by rw [hy]; positivity
  rw [← hy]
  have tie : roundHalfEven (600 - 1 / 2) = 600 := by
    have hf : ⌊(600 - 1 / 2 : ℝ)⌋ = 599 := by
      rw [Int.floor_eq_iff]; norm_num
    unfold roundHalfEven
    rw [hf, if_neg (by norm_num), if_neg (by norm_num), if_neg (by decide)]
    norm_num
  constructor
  · intro e
    by_contra hlt
    push Not at hlt
    have h1 : 1 / 2 < 1 / y := one_div_lt_one_div_of_lt hy0 hlt
    have h2 := abs_le.1 (abs_round_sub_le (600 - 1 / y))
    rw [e] at h2
    push_cast at h2
    linarith [h2.2]
  · intro hle
    have h1 : 1 / y ≤ 1 / 2 := one_div_le_one_div_of_le (by norm_num) hle
    have h2 : 0 < 1 / y := by positivity
    apply le_antisymm
    · rw [← round_int 600]; apply round_mono; push_cast; linarith
    · rw [← tie]; apply round_mono; linarith

example : determineNumSamples (200000:ℝ) = .ok 600 := (C49_full (by norm_num)).2 (by norm_num)

/-! ### C50 -/

/-- **C50** The samples are equally spaced, the first at the transmitter.
Full statement: and the last at the receiver; false, see `C50_refuted`. -/
theorem C50_spacing_partial {n : ℕ} (hn : 0 < n) (len : ℝ) :
    (samplePositions n len).length = n ∧ (samplePositions n len)[0]? = some 0 ∧
      ∀ k a b, (samplePositions n len)[k]? = some a → (samplePositions n len)[k + 1]? = some b → b - a = len / n := by
  have hg : ∀ k, (samplePositions n len)[k]? = if k < n then some (len / n * k) else none := by
    intro k
    unfold samplePositions
    rw [List.getElem?_map]
    by_cases h : k < n
    · rw [List.getElem?_range h, if_pos h]
      simp only [Option.map_some, rofInt]
      norm_num
    · rw [if_neg h, List.getElem?_eq_none (by simpa using h)]
      rfl
  refine ⟨by simp [samplePositions], by rw [hg, if_pos hn]; simp, ?_⟩
  intro k a b ha hb
  rw [hg] at ha hb
  split_ifs at ha hb
  rw [Option.some.injEq] at ha hb
  rw [← ha, ← hb]
  push_cast
  ring

/-- **C50** (refuted) On a line of positive length no sample is taken at the receiver: the last one is a full step short. The profile
therefore covers `(n - 1) / n` of the path, while the runner stretches it over the whole (`p2p.py` 133: spacing `d / (n - 1)`). -/
theorem C50_refuted {d len : ℝ} (hd : 0 ≤ d) (hl : 0 < len) :
    ∃ n : ℕ, determineNumSamples d = .ok (n : ℤ) ∧ (∀ x ∈ samplePositions n len, x ≤ len - len / n) ∧
      (samplePositions n len).getLast? = some (len - len / n) ∧ len - len / n < len := by
  obtain ⟨n, hn, h2, -⟩ := C49_range hd
  obtain ⟨k, rfl⟩ := Int.eq_ofNat_of_zero_le (show 0 ≤ n by omega)
  have hk : 2 ≤ k := by exact_mod_cast h2
  have hk0 : (0:ℝ) < k := by exact_mod_cast (by omega : 0 < k)
  have hs : 0 < len / k := by positivity
  refine ⟨k, hn, ?_, ?_, by linarith⟩
  · intro x hx
    unfold samplePositions at hx
    obtain ⟨i, hi, rfl⟩ := List.mem_map.1 hx
    rw [List.mem_range] at hi
    rw [rofInt, rofInt]
    have : (i : ℝ) ≤ k - 1 := by
      rw [le_sub_iff_add_le]; exact_mod_cast hi
    push_cast
    have e : len = len / k * k := by field_simp
    nlinarith
  · obtain ⟨j, rfl⟩ : ∃ j, k = j + 1 := ⟨k - 1, by omega⟩
    unfold samplePositions
    rw [List.getLast?_map, List.range_succ, List.getLast?_append]
    simp only [List.getLast?_singleton, Option.some_or, Option.map_some, rofInt, Option.some.injEq]
    push_cast
    field_simp
    ring

example : ∃ n : ℕ, determineNumSamples (77800:ℝ) = .ok (n : ℤ) ∧ (samplePositions n (0.9 : ℝ)).getLast? = some (0.9 - 0.9 / (n : ℝ)) :=
  let ⟨n, h, _, h', _⟩ := C50_refuted (d := 77800) (len := 0.9) (by norm_num) (by norm_num)
  ⟨n, h, h'⟩

/-! ### C51 -/

theorem interdecile_eq {x : List ℝ} (hx : x ≠ []) : interdecileRange x = .ok (roundHalfEven (pct x 90 - pct x 10)) := by
  unfold interdecileRange
  rw [show (90.0:ℝ) = 90 by norm_num, show (10.0:ℝ) = 10 by norm_num, npPercentile_eq hx (by norm_num) (by norm_num), ok_bind,
    npPercentile_eq hx (by norm_num) (by norm_num), ok_bind, pure_ok]
  rfl

theorem pct_mono (x : List ℝ) {q r : ℝ} (h0 : 0 ≤ q) (h : q ≤ r) (h1 : r ≤ 100) : pct x q ≤ pct x r := by
  unfold pct
  have hm : (0:ℝ) ≤ (x.length - 1 : ℕ) := Nat.cast_nonneg _
  apply lerp_mono (orderStat_mono x)
  · positivity
  · exact mul_le_mul_of_nonneg_right (by linarith) hm
  · nlinarith

theorem lower_decile {x : List ℝ} (hx : x ≠ []) : LowerDecile x (pct x 10) := by
  obtain ⟨m, hm⟩ : ∃ m, x.length = m + 1 := ⟨x.length - 1, by have := List.length_pos_iff.2 hx; omega⟩
  have l := sortAsc_length x
  have hm0 : (0:ℝ) ≤ m := Nat.cast_nonneg m
  have hmono : ∀ i j, i ≤ j → j ≤ m → orderStat x i ≤ orderStat x j := by
    have := orderStat_mono x; rwa [hm, Nat.add_sub_cancel] at this
  obtain ⟨v, hv⟩ : ∃ v : ℝ, v = (m : ℝ) / 10 := ⟨_, rfl⟩
  have hp : pct x 10 = lerp (orderStat x) m v := by
    unfold pct; rw [hm, Nat.add_sub_cancel, hv]; congr 1; ring
  have hv0 : 0 ≤ v := by rw [hv]; positivity
  have hv1 : v ≤ m := by rw [hv]; linarith
  have hf := floor_le_of hv1
  have f1 := Nat.floor_le hv0
  have f2 := Nat.lt_floor_add_one v
  obtain ⟨b1, b2⟩ := lerp_bounds hmono hv0 hv1
  have hn : ((x.length : ℝ) - 1) / 10 = v := by rw [hm, hv]; push_cast; ring
  unfold LowerDecile
  rw [hn, hp]
  constructor
  · rw [orderStat_get (by omega)] at b1
    have := count_le (sortAsc_pairwise x) (by omega) b1
    rw [(sortAsc_perm x).countP_eq] at this
    have : ((⌊v⌋₊ + 1 : ℕ) : ℝ) ≤ (x.countP (fun y => decide (y ≤ lerp (orderStat x) m v)) : ℝ) := by exact_mod_cast this
    push_cast at this
    linarith
  · by_cases hi : v = ⌊v⌋₊
    · have e := lerp_int (g := orderStat x) (m := m) hi
      rw [orderStat_get (by omega)] at e
      have := count_lt (sortAsc_pairwise x) (by omega) e.le
      rw [(sortAsc_perm x).countP_eq] at this
      have : (x.countP (fun y => decide (y < lerp (orderStat x) m v)) : ℝ) ≤ (⌊v⌋₊ : ℝ) := by exact_mod_cast this
      linarith
    · rw [orderStat_get (by omega)] at b2
      have := count_lt (sortAsc_pairwise x) (by omega) b2
      rw [(sortAsc_perm x).countP_eq] at this
      have : (x.countP (fun y => decide (y < lerp (orderStat x) m v)) : ℝ) ≤ ((⌊v⌋₊ + 1 : ℕ) : ℝ) := by
        exact_mod_cast this.trans (by omega)
      have f3 := lt_of_le_of_ne f1 (Ne.symm hi)
      push_cast at this
      linarith

theorem count_split' (s : List ℝ) (a : ℝ) : s.countP (fun x => decide (x ≤ a)) + s.countP (fun x => decide (a < x)) = s.length := by
  induction s with
  | nil => rfl
  | cons x s ih =>
    rw [List.countP_cons, List.countP_cons, List.length_cons]
    by_cases h : x ≤ a
    · simp only [h, not_lt.2 h, decide_true, decide_false, if_true, Bool.false_eq_true, if_false]; omega
    · simp only [h, not_le.1 h, decide_true, decide_false, if_true, Bool.false_eq_true, if_false]; omega

theorem upper_decile {x : List ℝ} (hx : x ≠ []) : UpperDecile x (pct x 90) := by
  obtain ⟨m, hm⟩ : ∃ m, x.length = m + 1 := ⟨x.length - 1, by have := List.length_pos_iff.2 hx; omega⟩
  have l := sortAsc_length x
  have hm0 : (0:ℝ) ≤ m := Nat.cast_nonneg m
  have hmono : ∀ i j, i ≤ j → j ≤ m → orderStat x i ≤ orderStat x j := by
    have := orderStat_mono x; rwa [hm, Nat.add_sub_cancel] at this
  obtain ⟨v, hv⟩ : ∃ v : ℝ, v = 9 * (m : ℝ) / 10 := ⟨_, rfl⟩
  have hp : pct x 90 = lerp (orderStat x) m v := by
    unfold pct; rw [hm, Nat.add_sub_cancel, hv]; congr 1; ring
  have hv0 : 0 ≤ v := by rw [hv]; positivity
  have hv1 : v ≤ m := by rw [hv]; linarith
  have hf := floor_le_of hv1
  have f1 := Nat.floor_le hv0
  have f2 := Nat.lt_floor_add_one v
  obtain ⟨b1, b2⟩ := lerp_bounds hmono hv0 hv1
  have hn : ((x.length : ℝ) - 1) / 10 = m - v := by rw [hm, hv]; push_cast; ring
  unfold UpperDecile
  rw [hn, hp]
  have s1 := count_split x (lerp (orderStat x) m v)
  have s2 := count_split' x (lerp (orderStat x) m v)
  have s1' : (x.countP (fun y => decide (y < lerp (orderStat x) m v)) : ℝ) + x.countP (fun y => decide (lerp (orderStat x) m v ≤ y)) = m + 1 := by
    exact_mod_cast s1.trans hm
  have s2' : (x.countP (fun y => decide (y ≤ lerp (orderStat x) m v)) : ℝ) + x.countP (fun y => decide (lerp (orderStat x) m v < y)) = m + 1 := by
    exact_mod_cast s2.trans hm
  constructor
  · by_cases hi : v = ⌊v⌋₊
    · have e := lerp_int (g := orderStat x) (m := m) hi
      rw [orderStat_get (by omega)] at e
      have := count_lt (sortAsc_pairwise x) (by omega) e.le
      rw [(sortAsc_perm x).countP_eq] at this
      have : (x.countP (fun y => decide (y < lerp (orderStat x) m v)) : ℝ) ≤ (⌊v⌋₊ : ℝ) := by exact_mod_cast this
      linarith
    · rw [orderStat_get (by omega)] at b2
      have := count_lt (sortAsc_pairwise x) (by omega) b2
      rw [(sortAsc_perm x).countP_eq] at this
      have : (x.countP (fun y => decide (y < lerp (orderStat x) m v)) : ℝ) ≤ ((⌊v⌋₊ + 1 : ℕ) : ℝ) := by
        exact_mod_cast this.trans (by omega)
      have f3 := lt_of_le_of_ne f1 (Ne.symm hi)
      push_cast at this
      linarith
  · rw [orderStat_get (by omega)] at b1
    have := count_le (sortAsc_pairwise x) (by omega) b1
    rw [(sortAsc_perm x).countP_eq] at this
    have : ((⌊v⌋₊ + 1 : ℕ) : ℝ) ≤ (x.countP (fun y => decide (y ≤ lerp (orderStat x) m v)) : ℝ) := by exact_mod_cast this
    push_cast at this
    linarith

/-- **C51** On a nonempty list the result is the distance between an upper and a lower decile, rounded to a nearest integer. -/
theorem C51_deciles {x : List ℝ} (hx : x ≠ []) :
    ∃ n a b, interdecileRange x = .ok n ∧ LowerDecile x a ∧ UpperDecile x b ∧ a ≤ b ∧ NearestInt (b - a) n :=
  ⟨_, _, _, interdecile_eq hx, lower_decile hx, upper_decile hx, pct_mono x (by norm_num) (by norm_num) (by norm_num), abs_round_sub_le _⟩

/-- **C51** Never negative, and at most the rounded full range. -/
theorem C51_range {x : List ℝ} {n : Int} {lo hi : ℝ} (h : interdecileRange x = .ok n) (hlo : ∀ y ∈ x, lo ≤ y) (hhi : ∀ y ∈ x, y ≤ hi) :
    0 ≤ n ∧ n ≤ PyNum.roundInt (hi - lo) := by
  have hx : x ≠ [] := by
    rintro rfl
    unfold interdecileRange at h
    rw [pct_nil] at h
    cases h
  rw [interdecile_eq hx, ok_inj] at h
  obtain ⟨m, hm⟩ : ∃ m, x.length = m + 1 := ⟨x.length - 1, by have := List.length_pos_iff.2 hx; omega⟩
  have l := sortAsc_length x
  have hmono := orderStat_mono x
  have hmem : ∀ i, i ≤ m → orderStat x i ∈ x := by
    intro i hi
    rw [orderStat_get (by omega)]
    exact (sortAsc_perm x).mem_iff.1 (List.getElem_mem _)
  have bd : ∀ q : ℝ, 0 ≤ q → q ≤ 100 → lo ≤ pct x q ∧ pct x q ≤ hi := by
    intro q q0 q1
    have hm0 : (0:ℝ) ≤ (x.length - 1 : ℕ) := Nat.cast_nonneg _
    have hv1 : q / 100 * ((x.length - 1 : ℕ) : ℝ) ≤ (x.length - 1 : ℕ) := by nlinarith
    obtain ⟨b1, b2⟩ := lerp_bounds hmono (v := q / 100 * ((x.length - 1 : ℕ) : ℝ)) (by positivity) hv1
    have hf := floor_le_of hv1
    exact ⟨(hlo _ (hmem _ (by omega))).trans b1, b2.trans (hhi _ (hmem _ (by omega)))⟩
  rw [← h]
  constructor
  · rw [← round_int 0]
    apply round_mono
    have := pct_mono x (q := 10) (r := 90) (by norm_num) (by norm_num) (by norm_num)
    push_cast; linarith
  · apply round_mono
    have := (bd 90 (by norm_num) (by norm_num)).2
    have := (bd 10 (by norm_num) (by norm_num)).1
    linarith

/-- **C51** The order of the values does not matter. -/
theorem C51_perm {x y : List ℝ} (h : x.Perm y) : interdecileRange x = interdecileRange y := by
  unfold interdecileRange npPercentile
  dsimp only
  rw [show x.mergeSort (fun a b => decide (a ≤ b)) = y.mergeSort (fun a b => decide (a ≤ b)) from sortAsc_congr h]

theorem pct_shift {x : List ℝ} (hx : x ≠ []) (c q : ℝ) (h0 : 0 ≤ q) (h1 : q ≤ 100) : pct (x.map (· + c)) q = pct x q + c := by
  have hl := List.length_pos_iff.2 hx
  have l := sortAsc_length x
  have hm0 : (0:ℝ) ≤ (x.length - 1 : ℕ) := Nat.cast_nonneg _
  have hv1 : q / 100 * ((x.length - 1 : ℕ) : ℝ) ≤ (x.length - 1 : ℕ) := by nlinarith
  have hf := floor_le_of hv1
  have hs : ∀ i, i ≤ x.length - 1 → orderStat (x.map (· + c)) i = orderStat x i + c := by
    intro i hi
    have e : sortAsc (x.map (· + c)) = (sortAsc x).map (· + c) := sortAsc_map (fun a b h => by linarith)
    unfold orderStat
    rw [e, List.getD_eq_getElem?_getD, List.getD_eq_getElem?_getD, List.getElem?_map, List.getElem?_eq_getElem (by omega)]
    rfl
  unfold pct lerp
  rw [List.length_map, hs _ hf, hs _ (by omega)]
  ring

/-- **C51** Raising all heights by the same amount changes nothing. -/
theorem C51_shift (x : List ℝ) (c : ℝ) : interdecileRange (x.map (· + c)) = interdecileRange x := by
  by_cases hx : x = []
  · subst hx; rfl
  · rw [interdecile_eq hx, interdecile_eq (by simpa using hx), pct_shift hx c 90 (by norm_num) (by norm_num), pct_shift hx c 10 (by norm_num) (by norm_num)]
    congr 2
    ring

/-- **C51** Zero on constant data. -/
theorem C51_constant (n : ℕ) (c : ℝ) : interdecileRange (List.replicate (n + 1) c) = .ok 0 := by
  obtain ⟨k, a, b, hk, -⟩ := C51_deciles (x := List.replicate (n + 1) c) (by simp)
  have := C51_range hk (lo := c) (hi := c) (fun y hy => (List.eq_of_mem_replicate hy).ge) (fun y hy => (List.eq_of_mem_replicate hy).le)
  rw [sub_self] at this
  have e : (PyNum.roundInt (0:ℝ) : ℤ) = 0 := by
    have := round_int 0
    push_cast at this
    exact this
  rw [e] at this
  rw [hk, show k = 0 by omega]

/-- **C51** An empty selection is an error (numpy raises `IndexError`; versions returning nan fail in `int(round(nan, 0))`). -/
theorem C51_empty : interdecileRange ([] : List ℝ) = .error .indexError := by
  unfold interdecileRange
  rw [pct_nil]
  rfl

end Itm.Props
