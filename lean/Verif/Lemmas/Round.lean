import Verif.Lemmas.Basic
import Mathlib.Algebra.Order.Floor.Ring

/-! Python's `round` on exact reals: nearest, monotone, odd. -/

namespace Itm

theorem floor_le_round (x : ℝ) : ⌊x⌋ ≤ roundHalfEven x := by
  unfold roundHalfEven; split_ifs <;> omega

theorem round_le_floor_add_one (x : ℝ) : roundHalfEven x ≤ ⌊x⌋ + 1 := by
  unfold roundHalfEven; split_ifs <;> omega

/-- `round` moves a number by at most one half. -/
theorem abs_round_sub_le (x : ℝ) : |(roundHalfEven x : ℝ) - x| ≤ 1 / 2 := by
  have h1 := Int.floor_le x
  have h2 := Int.lt_floor_add_one x
  unfold roundHalfEven
  rw [abs_le]
  split_ifs with a b c <;> push_cast <;> constructor <;> linarith

theorem round_mono {x y : ℝ} (h : x ≤ y) : roundHalfEven x ≤ roundHalfEven y := by
  have hf : ⌊x⌋ ≤ ⌊y⌋ := Int.floor_le_floor h
  rcases hf.lt_or_eq with hlt | heq
  · have := round_le_floor_add_one x
    have := floor_le_round y
    omega
  · unfold roundHalfEven
    rw [heq]
    split_ifs <;> first | omega | (exfalso; linarith)

theorem round_int (n : ℤ) : roundHalfEven (n : ℝ) = n := by
  unfold roundHalfEven; simp

theorem round_eq_of_abs_lt {x : ℝ} {n : ℤ} (h : |x - n| < 1 / 2) : roundHalfEven x = n := by
  have h1 := abs_round_sub_le x
  rw [abs_lt] at h
  rw [abs_le] at h1
  have h2 : (roundHalfEven x : ℝ) < n + 1 := by linarith
  have h3 : (n : ℝ) - 1 < roundHalfEven x := by linarith
  have h2' : roundHalfEven x < n + 1 := by exact_mod_cast h2
  have h3' : n - 1 < roundHalfEven x := by exact_mod_cast h3
  omega

theorem round_add_int (x : ℝ) (n : ℤ) (hn : Even n) : roundHalfEven (x + n) = roundHalfEven x + n := by
  unfold roundHalfEven
  rw [Int.floor_add_intCast]
  have e : x + (n : ℝ) - ((⌊x⌋ + n : ℤ) : ℝ) = x - ⌊x⌋ := by push_cast; ring
  rw [e]
  have he : Even (⌊x⌋ + n) ↔ Even ⌊x⌋ := by rw [Int.even_add]; simp [hn]
  simp only [he]
  split_ifs <;> omega

theorem round_neg (x : ℝ) : roundHalfEven (-x) = -roundHalfEven x := by
  by_cases hx : x = ⌊x⌋
  · have h1 : roundHalfEven x = ⌊x⌋ := by rw [hx, round_int]; simp
    have h2 : -x = ((-⌊x⌋ : ℤ) : ℝ) := by push_cast; linarith
    rw [h1, h2, round_int]
  · have h1 := Int.floor_le x
    have h2 := Int.lt_floor_add_one x
    have h3 : (⌊x⌋ : ℝ) < x := lt_of_le_of_ne h1 (Ne.symm hx)
    have hf : ⌊-x⌋ = -⌊x⌋ - 1 := by
      rw [Int.floor_eq_iff]; push_cast; constructor <;> linarith
    unfold roundHalfEven
    rw [hf]
    have he : Even (-⌊x⌋ - 1) ↔ ¬ Even ⌊x⌋ := by rw [Int.even_sub]; simp
    simp only [he]
    push_cast
    split_ifs <;> first | omega | (exfalso; linarith)

/-- `round(x, 4)` on exact reals. -/
theorem round4_real (x : ℝ) : PyNum.round4 x = (roundHalfEven (x * 10000) : ℝ) / 10000 := rfl

theorem round4_mono {x y : ℝ} (h : x ≤ y) : PyNum.round4 x ≤ PyNum.round4 y := by
  rw [round4_real, round4_real]
  have : roundHalfEven (x * 10000) ≤ roundHalfEven (y * 10000) := round_mono (by linarith)
  have : (roundHalfEven (x * 10000) : ℝ) ≤ roundHalfEven (y * 10000) := by exact_mod_cast this
  linarith

theorem round4_neg (x : ℝ) : PyNum.round4 (-x) = -PyNum.round4 x := by
  rw [round4_real, round4_real, neg_mul, round_neg]; push_cast; ring

theorem round4_near (x : ℝ) : |PyNum.round4 x - x| ≤ 0.00005 := by
  rw [round4_real]
  have h := abs_round_sub_le (x * 10000)
  have e : (roundHalfEven (x * 10000) : ℝ) / 10000 - x = ((roundHalfEven (x * 10000) : ℝ) - x * 10000) / 10000 := by
    ring
  rw [e, abs_div, abs_of_pos (by norm_num : (0 : ℝ) < 10000)]
  rw [div_le_iff₀ (by norm_num)]
  norm_num at h ⊢
  linarith

theorem round4_zero {x : ℝ} (h : |x| < 0.00005) : PyNum.round4 x = 0 := by
  rw [round4_real, round_eq_of_abs_lt (n := 0)]
  · simp
  · rw [abs_lt] at *; norm_num at *; constructor <;> linarith [h.1, h.2]

end Itm
