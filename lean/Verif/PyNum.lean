/-
Python number semantics used by the model.

The model is written once, for every type `α` carrying the operations of `PyNum`.
No law is required of the operations, so a theorem stated for an arbitrary `[PyNum α]`
holds for exact reals (`Verif.PyReal`) and for IEEE doubles (`Verif.PyFloat`) alike.
-/

namespace Itm

/-- Abnormal ends of a Python call, as values.

* `zeroDivision` – `ZeroDivisionError` (or inf/nan if an operand happens to be a numpy scalar)
* `valueError`   – `ValueError: math domain error` of `math.sqrt`
* `typeError`    – a negative number was raised to a fractional power: Python yields a complex
  number, and the next ordering comparison or `math.exp` on it raises `TypeError`
* `nonFinite`    – `np.log` of a nonpositive number: numpy yields -inf/nan and goes on; the model stops
* `indexError`, `keyError`, `unboundLocal` – as in Python -/
inductive PyErr where
  | zeroDivision
  | valueError
  | typeError
  | nonFinite
  | indexError
  | keyError (key : String)
  | unboundLocal (var : String)
deriving Repr, DecidableEq

/-- A Python call: a value or an exception. -/
abbrev Py := Except PyErr

/-- The number operations the code uses. Literals are decimal (`OfScientific`). No laws. -/
class PyNum (α : Type) extends
    Add α, Sub α, Mul α, Div α, Neg α, LT α, LE α, OfScientific α where
  decLt : DecidableRel (α := α) (· < ·)
  decLe : DecidableRel (α := α) (· ≤ ·)
  /-- int → float conversion -/
  ofInt : Int → α
  /-- `math.exp` -/
  exp : α → α
  /-- `np.log` on its domain -/
  log : α → α
  /-- `math.sqrt` on its domain -/
  sqrt : α → α
  /-- `math.sin` -/
  sin : α → α
  /-- `math.cos` -/
  cos : α → α
  /-- `x ** y` on nonnegative `x` -/
  rpow : α → α → α
  /-- `abs` -/
  abs : α → α
  /-- `int(np.floor(x))` -/
  floor : α → Int
  /-- `round(x)` (half to even) -/
  roundInt : α → Int
  /-- `round(x, 4)` -/
  round4 : α → α

attribute [reducible, instance] PyNum.decLt PyNum.decLe

section Prims
variable {α : Type} [PyNum α]

/-- Python `x == y` on numbers. -/
def pyEq (x y : α) : Prop := x ≤ y ∧ y ≤ x

instance (x y : α) : Decidable (pyEq x y) := inferInstanceAs (Decidable (_ ∧ _))

/-- Python `max(a, b)`: the first argument unless the second is strictly larger. -/
def pyMax (a b : α) : α := if a < b then b else a

/-- Python `min(a, b)`: the first argument unless the second is strictly smaller. -/
def pyMin (a b : α) : α := if b < a then b else a

/-- Python `int(x)`: truncation toward zero. -/
def pyInt (x : α) : Int := if x < 0.0 then -(PyNum.floor (-x)) else PyNum.floor x

/-- Python `x ** n` for a literal natural exponent. -/
def npow (x : α) : Nat → α
  | 0 => 1.0
  | n + 1 => npow x n * x

/-- Python `x / y`. -/
def pyDiv (x y : α) : Py α :=
  if pyEq y 0.0 then .error .zeroDivision else .ok (x / y)

@[inherit_doc] infixl:70 " /! " => pyDiv

/-- Python `math.sqrt(x)`. -/
def mathSqrt (x : α) : Py α :=
  if x < 0.0 then .error .valueError else .ok (PyNum.sqrt x)

/-- `np.log(x)`. -/
def npLog (x : α) : Py α :=
  if 0.0 < x then .ok (PyNum.log x) else .error .nonFinite

/-- Python `x ** y` for a fractional exponent `y`. -/
def pyPow (x y : α) : Py α :=
  if x < 0.0 then .error .typeError
  else if pyEq x 0.0 ∧ y < 0.0 then .error .zeroDivision
  else .ok (PyNum.rpow x y)

/-- `prop['key']` for a key the library computes itself: absent until it has been written. -/
def need {β : Type} (o : Option β) (key : String) : Py β :=
  match o with
  | some b => .ok b
  | none => .error (.keyError key)

/-- Python list indexing `l[i]` with negative wrap-around. -/
def pyGet {β : Type} (l : List β) (i : Int) : Py β :=
  let j := if i < 0 then i + l.length else i
  if j < 0 then .error .indexError
  else match l[j.toNat]? with
    | some b => .ok b
    | none => .error .indexError

end Prims

/-- A two-element list/dict indexed by terminal, `x[0]`, `x[1]`. -/
structure Pair (β : Type) where
  x0 : β
  x1 : β
deriving Repr, DecidableEq

/-- Exchange of the two terminals (used in specifications only). -/
def Pair.swap {β : Type} (p : Pair β) : Pair β := ⟨p.x1, p.x0⟩

/-- Python `complex`. A Python float used where a complex is expected is `⟨x, 0.0⟩`. -/
structure Cx (α : Type) where
  re : α
  im : α
deriving Repr

namespace Cx
variable {α : Type} [PyNum α]

/-- complex + complex -/
def add (z w : Cx α) : Cx α := ⟨z.re + w.re, z.im + w.im⟩
/-- complex - complex -/
def sub (z w : Cx α) : Cx α := ⟨z.re - w.re, z.im - w.im⟩
/-- complex * float -/
def smul (z : Cx α) (t : α) : Cx α := ⟨z.re * t, z.im * t⟩
/-- squared modulus -/
def normSq (z : Cx α) : α := z.re * z.re + z.im * z.im
/-- Python `abs(z)` (mathematical formula; CPython and numpy call `hypot`, which also avoids overflow and underflow of the squares) -/
def abs (z : Cx α) : α := PyNum.sqrt z.normSq
/-- complex / complex: Smith's algorithm as in CPython (`_Py_c_quot` of `Objects/complexobject.c`); numpy multiplies by `1/denom` instead of
dividing by `denom`. -/
def div (z w : Cx α) : Py (Cx α) :=
  if PyNum.abs w.im ≤ PyNum.abs w.re then do
    let ratio ← w.im /! w.re
    let denom := w.re + w.im * ratio
    let re ← (z.re + z.im * ratio) /! denom
    let im ← (z.im - z.re * ratio) /! denom
    .ok ⟨re, im⟩
  else do
    let ratio ← w.re /! w.im
    let denom := w.re * ratio + w.im
    let re ← (z.re * ratio + z.im) /! denom
    let im ← (z.im * ratio - z.re) /! denom
    .ok ⟨re, im⟩
/-- `cmath.sqrt(z)` (`qlrps.py` 41; `np.sqrt(z)` in `p2p.py` 155 and `pimter.py` 119): principal square root, by the algorithm of CPython's `cmath_sqrt`. Simplified:
`hypot` is the root of the sum of squares, parts that are both subnormal are not rescaled, and the sign of a negative zero is not copied. numpy computes the same
quantities without the factor eight. -/
def sqrt (z : Cx α) : Cx α :=
  let ax := PyNum.abs z.re / 8.0
  let s := 2.0 * PyNum.sqrt (ax + Cx.abs ⟨ax, PyNum.abs z.im / 8.0⟩)
  let d := PyNum.abs z.im / (2.0 * s)
  if pyEq z.re 0.0 ∧ pyEq z.im 0.0 then ⟨0.0, z.im⟩
  else if 0.0 ≤ z.re then ⟨s, if z.im < 0.0 then -d else d⟩
  else ⟨d, if z.im < 0.0 then -s else s⟩

end Cx
end Itm
