import Verif.PyReal
import Verif.Spec.Rounding
import Mathlib.Data.Int.Log
import Mathlib.Data.EReal.Basic

/-! IEEE 754 double precision numbers (binary64, rounding to nearest, ties to even), with infinities, NaN, signed zeros, subnormal numbers and
overflow, and any library of mathematical functions. -/

namespace Itm.Spec
open Itm

/-- The distance of neighbouring doubles around `x`: 53 digits, but nothing below `2^-1074`. -/
noncomputable def ulp (x : ℝ) : ℝ := 2 ^ max (Int.log 2 |x| - 52) (-1074)

/-- The nearest number of 53 digits, of two such the even one; exponents unbounded above. -/
noncomputable def nearest (x : ℝ) : ℝ := roundHalfEven (x / ulp x) * ulp x

/-- Numbers of 53 binary digits with exponents not below -1074. -/
def Binary (x : ℝ) : Prop := ∃ n k : ℤ, |n| ≤ 2 ^ 53 ∧ -1074 ≤ k ∧ x = n * 2 ^ k

/-- The doubles: signed numbers below `2^1024` (`neg` is the sign bit), infinities, NaN. -/
inductive Double where
  | num (neg : Bool) (mag : {m : ℝ // 0 ≤ m ∧ Binary m ∧ m < 2 ^ 1024})
  | inf (neg : Bool)
  | nan

namespace Double

/-- Neither infinite nor NaN. -/
def Finite : Double → Prop
  | num _ _ => True
  | _ => False

/-- The number meant. -/
noncomputable def val : Double → ℝ
  | num true m => -m.1
  | num false m => m.1
  | _ => 0

/-- The extended real number meant, unless NaN. -/
noncomputable def ext : Double → Option EReal
  | nan => none
  | inf true => some ⊥
  | inf false => some ⊤
  | a => some a.val

open Classical in
/-- The result of an operation with exact result `x`: rounded; infinite if that is too large. `z` is the sign of an exact zero. -/
noncomputable def result (z : Bool) (x : ℝ) : Double :=
  if h : 0 ≤ |nearest x| ∧ Binary |nearest x| ∧ |nearest x| < 2 ^ 1024 then num (if x = 0 then z else decide (x < 0)) ⟨|nearest x|, h⟩
  else inf (decide (x < 0))

/-- `-a` -/
def neg : Double → Double
  | num s m => num (!s) m
  | inf s => inf (!s)
  | nan => nan

/-- `abs(a)` -/
def abs : Double → Double
  | num _ m => num false m
  | inf _ => inf false
  | nan => nan

/-- `a + b` -/
noncomputable def add : Double → Double → Double
  | num s m, num t n => result (s && t) ((num s m).val + (num t n).val)
  | inf s, inf t => if s = t then inf s else nan
  | inf s, num _ _ => inf s
  | num _ _, inf t => inf t
  | _, _ => nan

open Classical in
/-- `a * b` -/
noncomputable def mul : Double → Double → Double
  | num s m, num t n => result (xor s t) ((num s m).val * (num t n).val)
  | inf s, inf t => inf (xor s t)
  | inf s, num t n => if n.1 = 0 then nan else inf (xor s t)
  | num s m, inf t => if m.1 = 0 then nan else inf (xor s t)
  | _, _ => nan

open Classical in
/-- `a / b` of the hardware (Python raises on zero divisors) -/
noncomputable def div : Double → Double → Double
  | num s m, num t n => if n.1 = 0 then (if m.1 = 0 then nan else inf (xor s t)) else result (xor s t) ((num s m).val / (num t n).val)
  | inf s, num t _ => inf (xor s t)
  | num s _, inf t => result (xor s t) 0
  | _, _ => nan

open Classical in
/-- square root -/
noncomputable def sqrt : Double → Double
  | num s m => if m.1 = 0 then num s m else if s then nan else result false (√m.1)
  | inf false => inf false
  | _ => nan

/-- `round(a, 4)`: CPython rounds the exact value to the nearest decimal of four places (ties to even) and that to the nearest double. -/
noncomputable def round4 : Double → Double
  | num s m => result s ((roundHalfEven ((num s m).val * 10000) : ℝ) / 10000)
  | a => a

/-- `a < b`; false if one is NaN -/
def lt (a b : Double) : Prop := ∃ x y, a.ext = some x ∧ b.ext = some y ∧ x < y
/-- `a <= b`; false if one is NaN -/
def le (a b : Double) : Prop := ∃ x y, a.ext = some x ∧ b.ext = some y ∧ x ≤ y

end Double

/-- A library of mathematical functions. -/
structure Libm where
  exp : Double → Double
  log : Double → Double
  sin : Double → Double
  cos : Double → Double
  pow : Double → Double → Double

/-- Results are right to four units in the last place (directed rounding), or to `2^-1000`, as long as they are below `2^1000`. -/
structure Libm.Accurate (M : Libm) : Prop where
  exp : ∀ a : Double, a.Finite → Real.exp a.val ≤ roundBig → (M.exp a).Finite ∧ |(M.exp a).val - Real.exp a.val| ≤ roundEps * Real.exp a.val + roundTiny
  log : ∀ a : Double, a.Finite → 0 < a.val → (M.log a).Finite ∧ |(M.log a).val - Real.log a.val| ≤ roundEps * |Real.log a.val| + roundTiny
  pow : ∀ a b : Double, a.Finite → b.Finite → 0 < a.val → a.val ^ b.val ≤ roundBig →
    (M.pow a b).Finite ∧ |(M.pow a b).val - a.val ^ b.val| ≤ roundEps * a.val ^ b.val + roundTiny

/-- The doubles, with the functions of a library. -/
def DoubleOf (_ : Libm) := Double

open Classical in
/-- The arithmetic of Python floats. (`int` of an infinity or NaN raises in Python; here it is 0.) -/
noncomputable instance (M : Libm) : PyNum (DoubleOf M) where
  add := Double.add
  sub a b := Double.add a (Double.neg b)
  mul := Double.mul
  div := Double.div
  neg := Double.neg
  lt := Double.lt
  le := Double.le
  ofScientific m s e := Double.result false (OfScientific.ofScientific m s e)
  decLt _ _ := Classical.dec _
  decLe _ _ := Classical.dec _
  ofInt n := Double.result false n
  exp := M.exp
  log := M.log
  sqrt := Double.sqrt
  sin := M.sin
  cos := M.cos
  rpow := M.pow
  abs := Double.abs
  floor a := ⌊Double.val a⌋
  roundInt a := roundHalfEven (Double.val a)
  round4 := Double.round4

end Itm.Spec
