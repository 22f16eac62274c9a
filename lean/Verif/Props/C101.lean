import Verif.Lemmas.Binary64
import Verif.Props.C74
import Verif.Props.C93

/-!
C101. The guarantees that survive rounding are guarantees about IEEE 754 doubles.

`Spec/Binary64` defines the double precision numbers with infinities, NaN, signed zeros, subnormal numbers and overflow, rounding to nearest
with ties to even, and the arithmetic of Python floats on them, with an arbitrary library for `exp`, `log`, `sin`, `cos` and powers. With every
library accurate to four units in the last place they satisfy the laws asked for in C74 to C77, C82, C83, C89 and C93.
-/

namespace Itm.Props
open Itm Itm.Spec

/-- Rounding is to a number of 53 digits (or subnormal), no other such number is nearer, and of two equally near neighbours the even one is taken. -/
theorem C101_nearest (x : ℝ) : Binary (nearest x) ∧ (∀ y, Binary y → |nearest x - x| ≤ |y - x|) ∧
    ∀ y, Binary y → y ≠ nearest x → |y - x| = |nearest x - x| →
      ∃ n k : ℤ, Even n ∧ |n| ≤ 2 ^ 53 ∧ -1074 ≤ k ∧ nearest x = n * 2 ^ k ∧ |y - nearest x| = 2 ^ k :=
  ⟨nearest_binary x, fun _ => nearest_best, fun _ => nearest_tie⟩

/-- The finite doubles are all numbers of 53 digits below `2^1024`. -/
theorem C101_numbers (x : ℝ) : (∃ a : Double, a.Finite ∧ a.val = x) ↔ Binary x ∧ |x| < 2 ^ 1024 := by
  constructor
  · rintro ⟨a, ha, rfl⟩
    exact ⟨Double.val_binary ha, Double.val_lt ha⟩
  · rintro ⟨h1, h2⟩
    obtain ⟨f, v⟩ := Double.result_ok (x := x) false (by rw [h1.nearest]; exact h2)
    exact ⟨_, f, by rw [v, h1.nearest]⟩

/-- Doubles with an accurate library satisfy the laws of rounding. -/
theorem C101_laws {M : Libm} (h : M.Accurate) : ∃ R : Rounding (DoubleOf M), R.fin = Double.Finite ∧ R.val = Double.val ∧ R.rnd = nearest :=
  ⟨ieee h, rfl, rfl, rfl⟩

/-- Computed in doubles, `qerfi` is within 0.0051 of the exact deviate. -/
theorem C101_deviate {M : Libm} (h : M.Accurate) (q : DoubleOf M) (hq : Double.Finite q) (x : ℝ) (hx : normalTail x = Double.val q)
    (h1 : 0.000001 ≤ Double.val q) (h2 : Double.val q ≤ 1 - 0.000001) :
    ∃ v : DoubleOf M, qerfi [q] = .ok [v] ∧ Double.Finite v ∧ |Double.val v - x| ≤ 0.0051 :=
  C74_qerfi_accuracy (ieee h) q hq x hx h1 h2

/-- Computed in doubles, the deviates of whole percentages are finite, that of 50 percent is zero, and they keep their order with a gap. -/
theorem C101_percent {M : Libm} (h : M.Accurate) :
    (∀ r : ℤ, 0 ≤ r → r ≤ 100 → ∃ z : DoubleOf M, DeviateOf r z ∧ Double.Finite z ∧ |Double.val z| ≤ 5.3) ∧
    (∀ z : DoubleOf M, DeviateOf 50 z → Double.val z = 0) ∧
    ∀ (r s : ℤ) (y z : DoubleOf M), 0 ≤ r → r < s → s ≤ 100 → DeviateOf r y → DeviateOf s z → Double.val z + 0.003 ≤ Double.val y :=
  ⟨fun r h0 h1 => C74_percent (ieee h) r h0 h1, fun z hz => C74_median (ieee h) z hz,
    fun r s y z h0 hrs h1 hy hz => C74_percent_order (ieee h) r s y z h0 hrs h1 hy hz⟩

/-- Computed in doubles, the preparation of every path of ordinary size returns finite parameters: no overflow, no NaN. -/
theorem C101_path {M : Libm} (h : M.Accurate) {p : PropSt (DoubleOf M)} {n : ℕ} (H : SizedPath (ieee h) p n) :
    ∃ q, qlrpflPrep p = .ok q ∧ (Double.Finite q.dist ∧ Double.Finite q.dh ∧ Double.Finite q.he.x0 ∧ Double.Finite q.he.x1 ∧
      Double.Finite q.dl.x0 ∧ Double.Finite q.dl.x1 ∧ Double.Finite q.the.x0 ∧ Double.Finite q.the.x1) ∧
      0 ≤ Double.val q.dh ∧ Double.val p.hg.x0 ≤ Double.val q.he.x0 ∧ Double.val p.hg.x1 ≤ Double.val q.he.x1 ∧
      0 < Double.val q.dl.x0 ∧ 0 < Double.val q.dl.x1 := by
  obtain ⟨q, e, f, -, d, -, a, b, c, g, -⟩ := C93_usable (ieee h) H
  exact ⟨q, e, f, d, a, b, c, g⟩

/-- There is an accurate library: the one that returns the nearest double. -/
example : ∃ M : Libm, M.Accurate := ⟨bestLibm, bestLibm_accurate⟩

/-- One third is no double. -/
example : nearest (1 / 3) ≠ 1 / 3 := fun e => by
  obtain ⟨n, k, -, -, h⟩ := nearest_binary (1 / 3)
  rw [e] at h
  rcases le_total 0 k with c | c
  · obtain ⟨j, rfl⟩ := Int.eq_ofNat_of_zero_le c
    rw [zpow_natCast] at h
    have h3 : ((1 : ℤ) : ℝ) = ((3 * (n * 2 ^ j) : ℤ) : ℝ) := by push_cast; rw [← h]; norm_num
    have : (1 : ℤ) = 3 * (n * 2 ^ j) := by exact_mod_cast h3
    omega
  · obtain ⟨j, hj⟩ := Int.eq_ofNat_of_zero_le (neg_nonneg.2 c)
    rw [show k = -(j : ℤ) by omega, zpow_neg, zpow_natCast] at h
    have hp : (0 : ℝ) < 2 ^ j := by positivity
    have h3 : ((2 ^ j : ℤ) : ℝ) = ((3 * n : ℤ) : ℝ) := by
      push_cast
      field_simp at h
      linarith
    have h4 : (2 ^ j : ℤ) = 3 * n := by exact_mod_cast h3
    have h5 : ∀ j : ℕ, (2 ^ j : ℤ) % 3 ≠ 0 := fun j => by
      induction j with
      | zero => norm_num
      | succ j ih => rw [pow_succ]; omega
    exact h5 j (by omega)

/-- A tie: `2^53 + 1` lies between two doubles; the even one is taken. -/
example : nearest (2 ^ 53 + 1) = 2 ^ 53 := by
  have l : Int.log 2 |(2 ^ 53 + 1 : ℝ)| = 53 := by
    have h1 := log_le (x := 2 ^ 53 + 1) (by positivity)
    have h2 := lt_log (2 ^ 53 + 1)
    rw [abs_of_pos (by positivity)] at h1 h2 ⊢
    generalize Int.log 2 (2 ^ 53 + 1 : ℝ) = L at *
    have h3 : (2 : ℝ) ^ L < 2 ^ (54 : ℤ) := lt_of_le_of_lt h1 (by norm_num)
    have h4 : (2 : ℝ) ^ (53 : ℤ) < 2 ^ (L + 1) := lt_trans (by norm_num) h2
    have h5 := (zpow_lt_zpow_iff_right₀ (by norm_num : (1 : ℝ) < 2)).1 h3
    have h6 := (zpow_lt_zpow_iff_right₀ (by norm_num : (1 : ℝ) < 2)).1 h4
    omega
  have u : ulp (2 ^ 53 + 1) = 2 := by unfold ulp; rw [l]; norm_num
  have r : roundHalfEven ((2 ^ 53 + 1 : ℝ) / 2) = 2 ^ 52 := by
    have f : ⌊(2 ^ 53 + 1 : ℝ) / 2⌋ = 2 ^ 52 := by rw [Int.floor_eq_iff]; norm_num
    unfold roundHalfEven
    rw [f]
    rw [if_neg (by norm_num), if_neg (by norm_num), if_pos ⟨2 ^ 51, by norm_num⟩]
  unfold nearest
  rw [u, r]
  norm_num

/-- Overflow: twice the largest double is infinite, and infinity minus infinity is NaN. -/
example (m) (h : m.1 = (2 ^ 53 - 1) * 2 ^ 971) : (Double.num false m).add (Double.num false m) = .inf false ∧
    (Double.inf false).add (Double.inf true) = .nan := by
  refine ⟨?_, rfl⟩
  rw [Double.add_num]
  have e : (Double.num false m).val + (Double.num false m).val = (2 ^ 53 - 1) * 2 ^ 972 := by
    rw [Double.val_num_false, h, pow_succ _ 971]; ring
  rw [e]
  have b : nearest ((2 ^ 53 - 1) * 2 ^ 972) = (2 ^ 53 - 1) * 2 ^ 972 := Binary.nearest ⟨2 ^ 53 - 1, 972, by norm_num, by norm_num, by
    rw [show (972 : ℤ) = ((972 : ℕ) : ℤ) from rfl, zpow_natCast]
    congr 1
    norm_num⟩
  have big : (2 : ℝ) ^ 1024 ≤ (2 ^ 53 - 1) * 2 ^ 972 := by
    rw [show (2 : ℝ) ^ 1024 = 2 ^ 52 * 2 ^ 972 by rw [← pow_add]]
    exact mul_le_mul_of_nonneg_right (by norm_num) (by positivity)
  have pos : (0 : ℝ) < (2 ^ 53 - 1) * 2 ^ 972 := lt_of_lt_of_le (by positivity) big
  unfold Double.result
  rw [dif_neg (fun k => by
    have := k.2.2
    rw [b, abs_of_pos pos] at this
    exact absurd big (not_le.2 this)), decide_eq_false (not_lt.2 pos.le)]

/-- The levels 10, 50 and 90 percent in doubles. -/
example {M : Libm} (h : M.Accurate) : ∃ x y z : DoubleOf M, DeviateOf 10 x ∧ DeviateOf 50 y ∧ DeviateOf 90 z ∧
    Double.val z + 0.003 ≤ Double.val y ∧ Double.val y = 0 ∧ 0.003 ≤ Double.val x := by
  obtain ⟨h1, h2, h3⟩ := C101_percent h
  obtain ⟨x, hx, -⟩ := h1 10 (by norm_num) (by norm_num)
  obtain ⟨y, hy, -⟩ := h1 50 (by norm_num) (by norm_num)
  obtain ⟨z, hz, -⟩ := h1 90 (by norm_num) (by norm_num)
  have e := h2 y hy
  have := h3 10 50 x y (by norm_num) (by norm_num) (by norm_num) hx hy
  exact ⟨x, y, z, hx, hy, hz, h3 50 90 y z (by norm_num) (by norm_num) (by norm_num) hy hz, e, by linarith⟩

/-- The path of C93 over a hill of 50 m, in doubles. -/
example {M : Libm} (h : M.Accurate) (p : PropSt (DoubleOf M)) : ∃ q, qlrpflPrep (ridgePath p 50) = .ok q ∧ Double.Finite q.dh ∧ 0 < Double.val q.dl.x0 := by
  obtain ⟨q, e, f, -, -, -, d, -⟩ := C101_path h (ridge_sized (ieee h) p 50 (by norm_num) (by norm_num))
  exact ⟨q, e, f.2.1, d⟩

end Itm.Props
