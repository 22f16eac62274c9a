import Verif.Spec.Precision
import Verif.Lemmas.Basic
import Mathlib.Analysis.SpecificLimits.Basic

/-! Fixed-point numbers with `n` binary digits after the point, rounded down: arithmetics of growing precision other than the reals. -/

namespace Itm
open Itm.Spec Filter Asymptotics Topology

/-- `x` rounded down to `n` binary digits after the point. -/
noncomputable def grid (n : ℕ) (x : ℝ) : ℝ := ⌊x * 2 ^ n⌋ / 2 ^ n

theorem grid_error (n : ℕ) (x : ℝ) : |grid n x - x| ≤ (1 / 2) ^ n := by
  have p : (0 : ℝ) < 2 ^ n := by positivity
  have h1 := Int.floor_le (x * 2 ^ n)
  have h2 := Int.lt_floor_add_one (x * 2 ^ n)
  have e : grid n x - x = (⌊x * 2 ^ n⌋ - x * 2 ^ n) / 2 ^ n := by unfold grid; field_simp
  rw [e, abs_div, abs_of_pos p, div_le_iff₀ p, ← mul_pow]
  norm_num
  rw [abs_le]
  constructor <;> linarith

theorem grid_int (n : ℕ) (k : ℤ) : grid n k = k := by
  unfold grid
  have : (k : ℝ) * 2 ^ n = ((k * 2 ^ n : ℤ) : ℝ) := by push_cast; rfl
  rw [this, Int.floor_intCast]
  push_cast
  field_simp

/-- Fixed-point numbers; the operations are the exact ones, rounded. -/
structure Fixed (n : ℕ) where
  val : ℝ

open Classical in
noncomputable instance (n : ℕ) : PyNum (Fixed n) where
  add a b := ⟨grid n (a.val + b.val)⟩
  sub a b := ⟨grid n (a.val - b.val)⟩
  mul a b := ⟨grid n (a.val * b.val)⟩
  div a b := ⟨grid n (a.val / b.val)⟩
  neg a := ⟨-a.val⟩
  lt a b := a.val < b.val
  le a b := a.val ≤ b.val
  ofScientific m s e := ⟨grid n (OfScientific.ofScientific m s e)⟩
  decLt _ _ := Classical.dec _
  decLe _ _ := Classical.dec _
  ofInt k := ⟨k⟩
  exp a := ⟨grid n (Real.exp a.val)⟩
  log a := ⟨grid n (Real.log a.val)⟩
  sqrt a := ⟨grid n (Real.sqrt a.val)⟩
  sin a := ⟨grid n (Real.sin a.val)⟩
  cos a := ⟨grid n (Real.cos a.val)⟩
  rpow a b := ⟨grid n (a.val ^ b.val)⟩
  abs a := ⟨|a.val|⟩
  floor a := ⌊a.val⌋
  roundInt a := PyNum.roundInt a.val
  round4 a := ⟨grid n (PyNum.round4 a.val)⟩

theorem grid_accurate (n : ℕ) (x : ℝ) : Accurate (fun _ : Fixed n => True) Fixed.val ((1 / 2) ^ n) ⟨grid n x⟩ x := by
  intro _
  refine ⟨trivial, (grid_error n x).trans ?_⟩
  have : (0 : ℝ) < (1 / 2) ^ n := by positivity
  nlinarith [abs_nonneg x]

noncomputable def gridArith (n : ℕ) : Arith (Fixed n) ((1 / 2) ^ n) where
  fin _ := True
  val := Fixed.val
  lit m s e := grid_accurate n _
  whole m s e k h _ := ⟨trivial, by show grid n _ = _; rw [h, grid_int]⟩
  ofInt k _ := ⟨trivial, rfl⟩
  add a b _ _ := grid_accurate n _
  sub a b _ _ := grid_accurate n _
  mul a b _ _ := grid_accurate n _
  div a b _ _ _ := grid_accurate n _
  zdiv a b _ _ h _ := by
    show grid n (a.val / b.val) = 0
    rw [h, zero_div]
    have := grid_int n 0
    rwa [Int.cast_zero] at this
  neg a _ := ⟨trivial, rfl⟩
  abs a _ := ⟨trivial, rfl⟩
  lt a b _ _ := Iff.rfl
  le a b _ _ := Iff.rfl
  sqrt a _ _ := grid_accurate n _
  exp a _ := grid_accurate n _
  log a _ _ := grid_accurate n _
  sin a _ := grid_accurate n _
  cos a _ := grid_accurate n _
  rpow a b _ _ _ := grid_accurate n _
  floor a _ := rfl
  round4 a _ := grid_accurate n _

/-- More and more digits after the point. -/
noncomputable def gridRefining : Refining atTop Fixed (fun n => (1 / 2) ^ n) where
  arith := gridArith
  pos n := by positivity
  tends := tendsto_pow_atTop_nhds_zero_of_lt_one (by norm_num) (by norm_num)

/-- A real number, rounded. -/
theorem grid_approx (x : ℝ) : gridRefining.Approx (fun n => ⟨grid n x⟩) x := by
  refine ⟨Eventually.of_forall fun _ => trivial, IsBigO.of_bound 1 (Eventually.of_forall fun n => ?_)⟩
  rw [one_mul, Real.norm_eq_abs, Real.norm_eq_abs, abs_of_pos (by positivity : (0 : ℝ) < (1 / 2) ^ n)]
  exact grid_error n x

end Itm
