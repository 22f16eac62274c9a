import Verif.PyNum

/-!
IEEE doubles as a `PyNum`, used only to *run* the model (`Verif.Conformance`).
-/

namespace Itm

/-- `Float` → `Int` for values of moderate size (floor first). -/
def floatFloorInt (x : Float) : Int :=
  let f := x.floor
  if f < 0.0 then - Int.ofNat (-f).toUInt64.toNat else Int.ofNat f.toUInt64.toNat

/-- round half to even on doubles of moderate size -/
def floatRoundInt (x : Float) : Int :=
  let f := floatFloorInt x
  let r := x - x.floor
  if r < 0.5 then f else if 0.5 < r then f + 1 else if f % 2 == 0 then f else f + 1

instance : PyNum Float where
  decLt a b := inferInstanceAs (Decidable (a < b))
  decLe a b := inferInstanceAs (Decidable (a ≤ b))
  ofInt i := Float.ofInt i
  exp := Float.exp
  log := Float.log
  sqrt := Float.sqrt
  sin := Float.sin
  cos := Float.cos
  rpow := Float.pow
  abs := Float.abs
  floor := floatFloorInt
  roundInt := floatRoundInt
  round4 x := Float.ofInt (floatRoundInt (x * 10000.0)) / 10000.0

end Itm
