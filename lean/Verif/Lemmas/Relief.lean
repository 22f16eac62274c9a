import Verif.Lemmas.Dlthx

/-! How large the irregularity can be over terrain of a given relief. -/

namespace Itm
open Itm.Spec

theorem countP_range (f : ℕ → ℝ) (c : ℝ → Bool) : ∀ n : ℕ,
    ((((List.range n).map f).countP c : ℕ) : ℝ) = ∑ j ∈ Finset.range n, if c (f j) then (1 : ℝ) else 0
  | 0 => by simp
  | n + 1 => by
    rw [List.range_succ, List.map_append, List.countP_append, Nat.cast_add, countP_range f c n, Finset.sum_range_succ]
    congr 1
    by_cases h : c (f n) <;> simp [h]

theorem trap_sum (g : ℕ → ℝ) : ∀ m : ℕ, trap g 0 m = (∑ j ∈ Finset.range (m + 1), g j) - (g 0 + g m) / 2
  | 0 => by simp [trap]
  | m + 1 => by
    have e : trap g 0 (m + 1) = trap g 0 m + (g (0 + m) + g (0 + m + 1)) / 2 := by
      unfold trap; exact Finset.sum_range_succ _ _
    rw [e, trap_sum g m, Finset.sum_range_succ _ (m + 1), Nat.zero_add]
    ring

theorem trap_mono {f g : ℕ → ℝ} {m : ℕ} (h : ∀ j, j ≤ m → f j ≤ g j) : trap f 0 m ≤ trap g 0 m := by
  unfold trap
  refine Finset.sum_le_sum fun i hi => ?_
  have := Finset.mem_range.1 hi
  linarith [h (0 + i) (by omega), h (0 + i + 1) (by omega)]

/-- Values between `lo` and `hi` of which `k` lie at or above `a` and `k` at or below `b`: the squares weigh at least `k - 1` times the
squares of both. -/
theorem decile_squares {f : ℕ → ℝ} {m k : ℕ} {a b : ℝ} (hab : b < a) (ha : k ≤ ((List.range (m + 1)).map f).countP fun x => decide (a ≤ x))
    (hb : k ≤ ((List.range (m + 1)).map f).countP fun x => decide (x ≤ b)) :
    ((k : ℝ) - 1) * (max a 0 ^ 2 + max (-b) 0 ^ 2) ≤ trap (fun j => f j ^ 2) 0 m := by
  obtain ⟨u, hu⟩ : ∃ u, u = max a 0 := ⟨_, rfl⟩
  obtain ⟨w, hw⟩ : ∃ w, w = max (-b) 0 := ⟨_, rfl⟩
  rw [← hu, ← hw]
  obtain ⟨g, hg⟩ : ∃ g : ℕ → ℝ, g = fun j => (if decide (a ≤ f j) then (1 : ℝ) else 0) * u ^ 2 + (if decide (f j ≤ b) then (1 : ℝ) else 0) * w ^ 2 :=
    ⟨_, rfl⟩
  have g1 : ∀ j, g j ≤ f j ^ 2 := by
    intro j
    rw [hg]
    by_cases h1 : a ≤ f j
    · have h2 : ¬ f j ≤ b := by intro h2; linarith
      simp only [h1, h2, decide_true, decide_false, if_true, one_mul, zero_mul, add_zero, Bool.false_eq_true, if_false]
      rcases le_total a 0 with c | c
      · rw [hu, max_eq_right c]; nlinarith [sq_nonneg (f j)]
      · rw [hu, max_eq_left c]; exact pow_le_pow_left₀ c h1 2
    · by_cases h2 : f j ≤ b
      · simp only [h1, h2, decide_true, decide_false, if_true, one_mul, zero_mul, zero_add, Bool.false_eq_true, if_false]
        rcases le_total 0 b with c | c
        · rw [hw, max_eq_right (by linarith)]; nlinarith [sq_nonneg (f j)]
        · rw [hw, max_eq_left (by linarith)]
          have := pow_le_pow_left₀ (by linarith : (0 : ℝ) ≤ -b) (by linarith : -b ≤ -f j) 2
          rw [neg_sq (f j)] at this
          exact this
      · simp only [h1, h2, decide_false, zero_mul, zero_add, Bool.false_eq_true, if_false]
        exact sq_nonneg _
  have g2 : ∀ j, g j ≤ u ^ 2 + w ^ 2 := by
    intro j
    rw [hg]
    have e1 : (if decide (a ≤ f j) then (1 : ℝ) else 0) ≤ 1 := by split <;> norm_num
    have e2 : (if decide (f j ≤ b) then (1 : ℝ) else 0) ≤ 1 := by split <;> norm_num
    have := mul_le_mul_of_nonneg_right e1 (sq_nonneg u)
    have := mul_le_mul_of_nonneg_right e2 (sq_nonneg w)
    dsimp only
    linarith
  refine le_trans ?_ (trap_mono (m := m) fun j _ => g1 j)
  rw [trap_sum]
  have e : ∑ j ∈ Finset.range (m + 1), g j = ((((List.range (m + 1)).map f).countP fun x => decide (a ≤ x) : ℕ) : ℝ) * u ^ 2 +
      ((((List.range (m + 1)).map f).countP fun x => decide (x ≤ b) : ℕ) : ℝ) * w ^ 2 := by
    rw [countP_range, countP_range, hg, Finset.sum_add_distrib, Finset.sum_mul, Finset.sum_mul]
  rw [e]
  have h1 : (k : ℝ) * u ^ 2 ≤ ((((List.range (m + 1)).map f).countP fun x => decide (a ≤ x) : ℕ) : ℝ) * u ^ 2 :=
    mul_le_mul_of_nonneg_right (by exact_mod_cast ha) (sq_nonneg _)
  have h2 : (k : ℝ) * w ^ 2 ≤ ((((List.range (m + 1)).map f).countP fun x => decide (x ≤ b) : ℕ) : ℝ) * w ^ 2 :=
    mul_le_mul_of_nonneg_right (by exact_mod_cast hb) (sq_nonneg _)
  linarith [g2 0, g2 m]

theorem interp_mem {z : ℕ → ℝ} {t lo hi : ℝ} {n : ℕ} (h0 : 0 ≤ t) (hn : t ≤ n) (hz : ∀ j, j ≤ n → lo ≤ z j ∧ z j ≤ hi) :
    lo ≤ interp z t ∧ interp z t ≤ hi := by
  have hf : ⌊t⌋₊ ≤ n := Nat.floor_le_of_le hn
  obtain ⟨a1, a2⟩ := hz _ hf
  unfold interp
  rcases Nat.lt_or_ge ⌊t⌋₊ n with c | c
  · obtain ⟨b1, b2⟩ := hz (⌊t⌋₊ + 1) c
    have f0 := Int.fract_nonneg t
    have f1 := (Int.fract_lt_one t).le
    generalize Int.fract t = r at *
    generalize z ⌊t⌋₊ = x at *
    generalize z (⌊t⌋₊ + 1) = y at *
    constructor <;> nlinarith
  · have e : t = n := le_antisymm hn (by have := Nat.floor_le h0; have : (n : ℝ) ≤ (⌊t⌋₊ : ℝ) := by exact_mod_cast c
                                         linarith)
    have : Int.fract t = 0 := by rw [e]; exact Int.fract_natCast n
    rw [this, mul_zero, add_zero]
    exact ⟨a1, a2⟩

/-- Over terrain between `lo` and `hi`, the interdecile range is less than 2.4 times the difference. -/
theorem irregularity_relief {z : ℕ → ℝ} {xa xb L v lo hi : ℝ} {n : ℕ} (h0 : 0 ≤ xa) (h2 : 2 ≤ xb - xa) (hb : xb ≤ n) (hL : 0 ≤ L)
    (hz : ∀ j, j ≤ n → lo ≤ z j ∧ z j ≤ hi) (h : IsIrregularity z xa xb L v) :
    v * (1 - 0.8 * Real.exp (-L / 50000)) ≤ 2.4 * (hi - lo) := by
  obtain ⟨c, s, a, b, hB, h1, h2', h3⟩ := h
  have hN : resampled xa xb = 10 * trimmed xa xb - 5 := rfl
  obtain ⟨k4, k25⟩ := trimmed_bounds xa xb
  have hH : 0 ≤ hi - lo := by linarith [(hz 0 (Nat.zero_le _)).1, (hz 0 (Nat.zero_le _)).2]
  rw [h3, div_mul_cancel₀ _ (atten_pos hL).ne']
  rcases le_or_gt a b with hab | hab
  · linarith
  obtain ⟨m, hm⟩ : ∃ m, m = resampled xa xb - 1 := ⟨_, rfl⟩
  have hm1 : resampled xa xb = m + 1 := by omega
  have hR : residuals z xa xb c s = (List.range (m + 1)).map fun j => resample z xa xb j - (c + s * j) := by
    unfold residuals; rw [hm1]
  rw [hR] at h1 h2'
  have ca : trimmed xa xb ≤ ((List.range (m + 1)).map fun j => resample z xa xb j - (c + s * j)).countP fun x => decide (a ≤ x) := by
    have := h1.2.2; omega
  have cb : trimmed xa xb ≤ ((List.range (m + 1)).map fun j => resample z xa xb j - (c + s * j)).countP fun x => decide (x ≤ b) := by
    have e1 := h2'.2.1
    have e2 := List.length_eq_countP_add_countP (fun x : ℝ => decide (b < x)) (l := (List.range (m + 1)).map fun j => resample z xa xb j - (c + s * j))
    rw [List.length_map, List.length_range] at e2
    have e3 : ((List.range (m + 1)).map fun j => resample z xa xb j - (c + s * j)).countP (fun x => decide ¬ (decide (b < x) = true)) =
        ((List.range (m + 1)).map fun j => resample z xa xb j - (c + s * j)).countP fun x => decide (x ≤ b) := by
      refine List.countP_congr fun x _ => ?_
      simp
    rw [e3] at e2
    omega
  have D := decile_squares hab ca cb
  have hmid := hB ((lo + hi) / 2) 0
  rw [← hm] at hmid
  have hbd : lineErr (resample z xa xb) 0 m ((lo + hi) / 2) 0 ≤ m * ((hi - lo) / 2) ^ 2 := by
    have : lineErr (resample z xa xb) 0 m ((lo + hi) / 2) 0 ≤ trap (fun _ => ((hi - lo) / 2) ^ 2) 0 m := by
      refine trap_mono fun j hj => ?_
      have hm0 : (0 : ℝ) < m := by have : 0 < m := by omega
                                   exact_mod_cast this
      have hj' : (j : ℝ) ≤ m := by exact_mod_cast hj
      have e : ((resampled xa xb : ℕ) : ℝ) - 1 = m := by rw [hm1]; push_cast; ring
      have hs : (j : ℝ) * ((xb - xa) / m) ≤ xb - xa := by
        rw [mul_div_assoc', div_le_iff₀ hm0, mul_comm]
        exact mul_le_mul_of_nonneg_left hj' (by linarith)
      have hs0 : 0 ≤ (j : ℝ) * ((xb - xa) / m) := mul_nonneg (Nat.cast_nonneg j) (div_nonneg (by linarith) hm0.le)
      obtain ⟨i1, i2⟩ := interp_mem (z := z) (t := xa + j * ((xb - xa) / m)) (lo := lo) (hi := hi) (n := n) (by linarith) (by linarith) hz
      show (resample z xa xb j - ((lo + hi) / 2 + 0 * j)) ^ 2 ≤ _
      unfold resample
      rw [e]
      refine sq_le_sq' ?_ ?_ <;> linarith
    refine this.trans (le_of_eq ?_)
    unfold trap
    rw [Finset.sum_const, Finset.card_range, nsmul_eq_mul]
    ring
  have T : ((trimmed xa xb : ℝ) - 1) * (max a 0 ^ 2 + max (-b) 0 ^ 2) ≤ m * ((hi - lo) / 2) ^ 2 := (D.trans hmid).trans hbd
  have hk : (m : ℝ) = 10 * (trimmed xa xb : ℝ) - 6 := by
    have : m + 6 = 10 * trimmed xa xb := by omega
    have : (m : ℝ) + 6 = 10 * (trimmed xa xb : ℝ) := by exact_mod_cast this
    linarith
  have hk4 : (4 : ℝ) ≤ trimmed xa xb := by exact_mod_cast k4
  rw [hk] at T
  obtain ⟨u, hu⟩ : ∃ u, u = max a 0 := ⟨_, rfl⟩
  obtain ⟨w, hw⟩ : ∃ w, w = max (-b) 0 := ⟨_, rfl⟩
  rw [← hu, ← hw] at T
  have u0 : a ≤ u := by rw [hu]; exact le_max_left _ _
  have w0 : -b ≤ w := by rw [hw]; exact le_max_left _ _
  have hsum : u ^ 2 + w ^ 2 ≤ 34 / 3 * ((hi - lo) / 2) ^ 2 := by
    have hq : (0 : ℝ) < (trimmed xa xb : ℝ) - 1 := by linarith
    refine le_of_mul_le_mul_left (T.trans ?_) hq
    nlinarith [sq_nonneg ((hi - lo) / 2)]
  have : (u + w) ^ 2 ≤ (2.4 * (hi - lo)) ^ 2 := by nlinarith [sq_nonneg (u - w), sq_nonneg (hi - lo)]
  have := abs_le_of_sq_le_sq this (by positivity)
  linarith [le_abs_self (u + w)]

end Itm
