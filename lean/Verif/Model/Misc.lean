import Verif.PyNum

/-! `src/itmlogic/misc` -/

namespace Itm
variable {α : Type} [PyNum α]

/-- `misc/qerf.py` 20-48. -/
def qerf (z : α) : Py α := do
  let b1 : α := 0.319381530
  let b2 : α := -0.356563782
  let b3 : α := 1.781477937
  let b4 : α := -1.821255987
  let b5 : α := 1.330274429
  let rp : α := 4.317008
  let rrt2pi : α := 0.398942280
  let x := z
  let t := PyNum.abs x
  let qerf1 ←
    if 10.0 ≤ t then
      pure (0.0 : α)
    else do
      let t ← rp /! (t + rp)
      pure (PyNum.exp (-0.5 * npow x 2) * rrt2pi *
        ((((b5 * t + b4) * t + b3) * t + b2) * t + b1) * t)
  if x < 0.0 then
    pure (1.0 - qerf1)
  else
    pure qerf1

/-- One entry of `misc/qerfi.py` 27-53 (lines 27, 33 and the body of the loop 38-53). -/
def qerfi1 (q : α) : Py α := do
  let c0 : α := 2.515516698
  let c1 : α := 0.802853
  let c2 : α := 0.010328
  let d1 : α := 1.432788
  let d2 : α := 0.189269
  let d3 : α := 0.001308
  let x := 0.5 - q
  let t := pyMax (0.5 - PyNum.abs x) 0.000001
  let l ← npLog t
  let r ← mathSqrt (-2.0 * l)
  let f ← ((c2 * r + c1) * r + c0) /! (((d3 * r + d2) * r + d1) * r + 1.0)
  let v := r - f
  let v := if x < 0.0 then -v else v
  pure (PyNum.round4 v)

/-- `misc/qerfi.py` 4-55: the three loops over the input list are one pass over its entries. -/
def qerfi (q : List α) : Py (List α) := q.mapM qerfi1

/-- `misc/qtile.py` 3-24: `sorted(a, reverse=True)[ir]` (Python's sort is stable also in reverse). -/
def qtile (a : List α) (ir : Int) : Py α :=
  pyGet (a.mergeSort (fun x y => decide (y ≤ x))) ir

end Itm
