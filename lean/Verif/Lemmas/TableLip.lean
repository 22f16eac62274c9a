import Verif.Lemmas.ScatReal

/-! The frequency gain of scattering changes slowly with its arguments. -/

namespace Itm.Props
open Itm

noncomputable def step (u : ℝ) : ℝ := max 0 (min u 1)

theorem step_lip (u v : ℝ) : |step u - step v| ≤ |u - v| := by
  unfold step
  refine (abs_max_sub_max_le_max 0 (min u 1) 0 (min v 1)).trans ?_
  rw [sub_self, abs_zero]
  refine max_le (abs_nonneg _) ((abs_min_sub_min_le_max u 1 v 1).trans ?_)
  rw [sub_self, abs_zero]
  exact max_le le_rfl (abs_nonneg _)

theorem step_le {u : ℝ} (h : u ≤ 0) : step u = 0 := by unfold step; rw [max_eq_left ((min_le_left _ _).trans h)]
theorem step_ge {u : ℝ} (h : 1 ≤ u) : step u = 1 := by unfold step; rw [min_eq_right h]; norm_num
theorem step_mid {u : ℝ} (h : 0 ≤ u) (h' : u ≤ 1) : step u = u := by unfold step; rw [min_eq_left h', max_eq_right h]

theorem table_sum (x e : ℝ) : tableR x e = rowR 0 x + step (e - 1) * (rowR 1 x - rowR 0 x) + step (e - 2) * (rowR 2 x - rowR 1 x) +
    step (e - 3) * (rowR 3 x - rowR 2 x) + step (e - 4) * (rowR 4 x - rowR 3 x) := by
  have f1 := Int.floor_le e
  have f2 := Int.lt_floor_add_one e
  unfold tableR
  by_cases h1 : ⌊e⌋ ≤ 0
  · have : (⌊e⌋ : ℝ) ≤ 0 := by exact_mod_cast h1
    rw [if_pos h1, step_le (by linarith), step_le (by linarith), step_le (by linarith), step_le (by linarith)]
    ring
  · by_cases h2 : 5 ≤ ⌊e⌋
    · have : (5 : ℝ) ≤ ⌊e⌋ := by exact_mod_cast h2
      rw [if_neg h1, if_pos h2, step_ge (by linarith), step_ge (by linarith), step_ge (by linarith), step_ge (by linarith)]
      ring
    · rw [if_neg h1, if_neg h2, show (1.0 : ℝ) = 1 by norm_num]
      push Not at h1 h2
      generalize ⌊e⌋ = n at *
      have : n = 1 ∨ n = 2 ∨ n = 3 ∨ n = 4 := by omega
      rcases this with rfl | rfl | rfl | rfl <;> push_cast at f1 f2 ⊢
      · rw [step_mid (by linarith) (by linarith), step_le (by linarith), step_le (by linarith), step_le (by linarith)]
        show (1 - (e - 1)) * rowR 0 x + (e - 1) * rowR 1 x = _
        ring
      · rw [step_ge (by linarith), step_mid (by linarith) (by linarith), step_le (by linarith), step_le (by linarith)]
        show (1 - (e - 2)) * rowR 1 x + (e - 2) * rowR 2 x = _
        ring
      · rw [step_ge (by linarith), step_ge (by linarith), step_mid (by linarith) (by linarith), step_le (by linarith)]
        show (1 - (e - 3)) * rowR 2 x + (e - 3) * rowR 3 x = _
        ring
      · rw [step_ge (by linarith), step_ge (by linarith), step_ge (by linarith), step_mid (by linarith) (by linarith)]
        show (1 - (e - 4)) * rowR 3 x + (e - 4) * rowR 4 x = _
        ring

theorem rowA_ratio (n : ℕ) : rowA (n + 1) ≤ 3.2 * rowA n := by
  match n with
  | 0 | 1 | 2 | 3 => simp only [rowA]; norm_num
  | n + 4 => simp only [rowA]; norm_num

theorem rowB_ratio (n : ℕ) : rowB (n + 1) ≤ 3.2 * rowB n := by
  match n with
  | 0 | 1 | 2 | 3 => simp only [rowB]; norm_num
  | n + 4 => simp only [rowB]; norm_num

theorem row_expand (a b x c : ℝ) : (a * x + b) * x + c = a * (x * x) + b * x + c := by ring
theorem row_expand' (k a b x c : ℝ) : k * ((a * x + b) * x + c) = k * a * (x * x) + k * b * x + k * c := by ring
theorem row_expand'' (k a b x c : ℝ) : k ^ 2 * ((a * x + b) * x + c) = a * (k * x * (k * x)) + b * (k ^ 2 * x) + k ^ 2 * c := by ring

theorem row_gap (n : ℕ) {x : ℝ} (hx : 0 ≤ x) : |rowR (n + 1) x - rowR n x| ≤ 10 := by
  rw [abs_of_nonneg (sub_nonneg.2 (rowR_succ n hx))]
  have p1 := rowArg_ge n hx
  have p2 := rowArg_ge (n + 1) hx
  have a := rowA_ratio n
  have b := rowB_ratio n
  have r : (rowA (n + 1) * x + rowB (n + 1)) * x + 1.0 ≤ 3.2 * ((rowA n * x + rowB n) * x + 1.0) := by
    have h1 := mul_le_mul_of_nonneg_right a (mul_nonneg hx hx)
    have h2 := mul_le_mul_of_nonneg_right b hx
    have h3 : (1.0 : ℝ) ≤ 3.2 * 1.0 := by norm_num
    rw [row_expand, row_expand']
    linarith
  have h := Real.log_le_log (by linarith) r
  rw [Real.log_mul (by norm_num) (by linarith)] at h
  have l := Real.log_le_sub_one_of_pos (show (0 : ℝ) < 3.2 by norm_num)
  unfold rowR
  generalize Real.log ((rowA (n + 1) * x + rowB (n + 1)) * x + 1.0) = u at *
  generalize Real.log ((rowA n * x + rowB n) * x + 1.0) = v at *
  generalize Real.log 3.2 = w at *
  clear * - h l
  norm_num at *; linarith

theorem table_lip {x : ℝ} (hx : 0 ≤ x) (e f : ℝ) : |tableR x e - tableR x f| ≤ 40 * |e - f| := by
  rw [table_sum, table_sum]
  have t : ∀ (k : ℝ) (n : ℕ), |(step (e - k) - step (f - k)) * (rowR (n + 1) x - rowR n x)| ≤ |e - f| * 10 := by
    intro k n
    rw [abs_mul]
    refine mul_le_mul ((step_lip _ _).trans ?_) (row_gap n hx) (abs_nonneg _) (abs_nonneg _)
    rw [sub_sub_sub_cancel_right]
  have t1 := abs_le.1 (t 1 0)
  have t2 := abs_le.1 (t 2 1)
  have t3 := abs_le.1 (t 3 2)
  have t4 := abs_le.1 (t 4 3)
  rw [abs_le]
  constructor <;> linarith [t1.1, t1.2, t2.1, t2.2, t3.1, t3.2, t4.1, t4.2]

theorem row_scale (n : ℕ) {x y η : ℝ} (hx : 0 ≤ x) (hy : 0 ≤ y) (h0 : 0 ≤ η) (h : y ≤ (1 + η) * x) : rowR n y ≤ rowR n x + 9 * η := by
  have p1 := rowArg_ge n hx
  have p2 := rowArg_ge n hy
  have a := rowA_nonneg n
  have b := rowB_nonneg n
  have r : (rowA n * y + rowB n) * y + 1.0 ≤ (1 + η) ^ 2 * ((rowA n * x + rowB n) * x + 1.0) := by
    have y2 : y * y ≤ (1 + η) * x * ((1 + η) * x) := mul_le_mul h h hy (by positivity)
    have h1 := mul_le_mul_of_nonneg_left y2 a
    have h2 := mul_le_mul_of_nonneg_left h b
    have h3 : rowB n * ((1 + η) * x) ≤ rowB n * ((1 + η) ^ 2 * x) :=
      mul_le_mul_of_nonneg_left (mul_le_mul_of_nonneg_right (by nlinarith) hx) b
    have h4 : (1.0 : ℝ) ≤ (1 + η) ^ 2 * 1.0 := by rw [show (1.0 : ℝ) = 1 by norm_num]; nlinarith
    rw [row_expand, row_expand'']
    linarith
  have l := Real.log_le_log (by linarith) r
  rw [Real.log_mul (by positivity) (by linarith), Real.log_pow] at l
  have k := Real.log_le_sub_one_of_pos (show (0 : ℝ) < 1 + η by linarith)
  unfold rowR
  generalize Real.log ((rowA n * y + rowB n) * y + 1.0) = u at *
  generalize Real.log ((rowA n * x + rowB n) * x + 1.0) = v at *
  generalize Real.log (1 + η) = w at *
  push_cast at l
  clear * - l k h0
  norm_num at *; linarith

theorem table_scale {x y η : ℝ} (e : ℝ) (hx : 0 ≤ x) (hy : 0 ≤ y) (h0 : 0 ≤ η) (h : y ≤ (1 + η) * x) : tableR y e ≤ tableR x e + 9 * η := by
  unfold tableR
  have f1 := Int.floor_le e
  have f2 := Int.lt_floor_add_one e
  split_ifs
  · exact row_scale 0 hx hy h0 h
  · exact row_scale 4 hx hy h0 h
  · rw [show (1.0 : ℝ) = 1 by norm_num]
    have h1 := mul_le_mul_of_nonneg_left (row_scale (⌊e⌋ - 1).toNat hx hy h0 h) (show 0 ≤ 1 - (e - ⌊e⌋) by linarith)
    have h2 := mul_le_mul_of_nonneg_left (row_scale ⌊e⌋.toNat hx hy h0 h) (show 0 ≤ e - ⌊e⌋ by linarith)
    linarith

end Itm.Props
