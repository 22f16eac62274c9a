import Verif.PyNum
import Mathlib.Analysis.SpecialFunctions.Pow.Real
import Mathlib.Analysis.SpecialFunctions.Trigonometric.Basic
import Mathlib.Algebra.Order.Round

/-!
Exact real arithmetic as a `PyNum`.
-/

namespace Itm

/-- Round half to even: the integer nearest to `x`, ties to the even neighbour (Python `round`). -/
noncomputable def roundHalfEven (x : ℝ) : ℤ :=
  if x - ⌊x⌋ < 1 / 2 then ⌊x⌋
  else if 1 / 2 < x - ⌊x⌋ then ⌊x⌋ + 1
  else if Even ⌊x⌋ then ⌊x⌋ else ⌊x⌋ + 1

noncomputable instance instPyNumReal : PyNum ℝ where
  decLt := Classical.decRel _
  decLe := Classical.decRel _
  ofInt i := (i : ℝ)
  exp := Real.exp
  log := Real.log
  sqrt := Real.sqrt
  sin := Real.sin
  cos := Real.cos
  rpow x y := x ^ y
  abs x := |x|
  floor x := ⌊x⌋
  roundInt := roundHalfEven
  round4 x := (roundHalfEven (x * 10000) : ℝ) / 10000

end Itm
