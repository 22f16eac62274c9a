import Verif.PyReal

/-! Arithmetic that rounds. What IEEE 754 doubles with a decent mathematical library provide, as a list of laws: basic operations and
square root return the rounded exact result, library functions are accurate to four units in the last place. -/

namespace Itm.Spec
open Itm

/-- Bound of the relative error: four times that of directed rounding of doubles. -/
@[irreducible] noncomputable def roundEps : ℝ := 2⁻¹ ^ 50
/-- Bound of the error of underflow. -/
@[irreducible] noncomputable def roundTiny : ℝ := 2⁻¹ ^ 1000
/-- Results up to here do not overflow. -/
@[irreducible] noncomputable def roundBig : ℝ := 2 ^ 1000

/-- The numbers of `α` are finite binary numbers (`fin`) with values `val`, or something else (infinities, NaN). `rnd` rounds reals to
values. All laws hold for IEEE doubles in any of the rounding modes that treat both signs alike. -/
structure Rounding (α : Type) [PyNum α] where
  fin : α → Prop
  val : α → ℝ
  rnd : ℝ → ℝ
  mono : Monotone rnd
  odd : ∀ x, rnd (-x) = -rnd x
  close : ∀ x, |x| ≤ roundBig → |rnd x - x| ≤ roundEps * |x| + roundTiny
  /-- numbers of 53 binary digits in the range of exponents are values -/
  exact : ∀ (n : ℤ) (k : ℤ), |n| ≤ 2 ^ 53 → -1000 ≤ k → k ≤ 900 → rnd (n * 2 ^ k) = n * 2 ^ k
  val_rnd : ∀ a, fin a → rnd (val a) = val a
  lit : ∀ m s e, |(OfScientific.ofScientific m s e : ℝ)| ≤ roundBig →
    fin (OfScientific.ofScientific m s e) ∧ val (OfScientific.ofScientific m s e) = rnd (OfScientific.ofScientific m s e)
  ofInt : ∀ n : ℤ, |(n : ℝ)| ≤ roundBig → fin (PyNum.ofInt n) ∧ val (PyNum.ofInt n) = rnd n
  add : ∀ a b, fin a → fin b → |val a + val b| ≤ roundBig → fin (a + b) ∧ val (a + b) = rnd (val a + val b)
  sub : ∀ a b, fin a → fin b → |val a - val b| ≤ roundBig → fin (a - b) ∧ val (a - b) = rnd (val a - val b)
  mul : ∀ a b, fin a → fin b → |val a * val b| ≤ roundBig → fin (a * b) ∧ val (a * b) = rnd (val a * val b)
  div : ∀ a b, fin a → fin b → val b ≠ 0 → |val a / val b| ≤ roundBig → fin (a / b) ∧ val (a / b) = rnd (val a / val b)
  neg : ∀ a, fin a → fin (-a) ∧ val (-a) = -val a
  abs : ∀ a, fin a → fin (PyNum.abs a) ∧ val (PyNum.abs a) = |val a|
  lt : ∀ a b, fin a → fin b → (a < b ↔ val a < val b)
  le : ∀ a b, fin a → fin b → (a ≤ b ↔ val a ≤ val b)
  sqrt : ∀ a, fin a → 0 ≤ val a → fin (PyNum.sqrt a) ∧ val (PyNum.sqrt a) = rnd (√(val a))
  exp : ∀ a, fin a → Real.exp (val a) ≤ roundBig → fin (PyNum.exp a) ∧
    |val (PyNum.exp a) - Real.exp (val a)| ≤ roundEps * Real.exp (val a) + roundTiny
  log : ∀ a, fin a → 0 < val a → fin (PyNum.log a) ∧
    |val (PyNum.log a) - Real.log (val a)| ≤ roundEps * |Real.log (val a)| + roundTiny
  rpow : ∀ a b, fin a → fin b → 0 < val a → val a ^ val b ≤ roundBig → fin (PyNum.rpow a b) ∧
    |val (PyNum.rpow a b) - val a ^ val b| ≤ roundEps * val a ^ val b + roundTiny
  floor : ∀ a, fin a → PyNum.floor a = ⌊val a⌋
  /-- `round(x, 4)`: the value of some decimal of four places that is nearest up to the accuracy of a multiplication; monotone -/
  round4 : ∀ a, fin a → |val a| ≤ 2 ^ 20 → fin (PyNum.round4 a) ∧ ∃ n : ℤ,
    val (PyNum.round4 a) = rnd (n / 10000) ∧ |n / 10000 - val a| ≤ 0.00005 + roundEps * (1 + |val a|)
  round4_mono : ∀ a b, fin a → fin b → |val a| ≤ 2 ^ 20 → |val b| ≤ 2 ^ 20 → val a ≤ val b →
    val (PyNum.round4 a) ≤ val (PyNum.round4 b)

end Itm.Spec
