import Verif.PyNum

/-! The pure parts of `scripts/terrain_module.py`. -/

namespace Itm
variable {α : Type} [PyNum α]

/-- `terrain_module.py` 184-226. -/
def determineNumSamples (distance_m : α) : Py Int := do
  let stretch : α := 1e-5
  let x ← (-1.0) /! (stretch * distance_m + 1.0 / (600.0 - 2.0))
  pure (PyNum.roundInt (x + 600.0))

/-- `terrain_module.py` 163-164: positions of the samples along a line of length `len`,
`np.interp(range(n), [0, n], [0, len])`; between the two knots numpy evaluates
`slope * (x - 0) + 0` with `slope = len / n`. -/
def samplePositions (n : Nat) (len : α) : List α :=
  (List.range n).map fun (k : Nat) => (len / PyNum.ofInt (n : Int)) * PyNum.ofInt (k : Int)

/-- `np.percentile(x, q)` with the default linear interpolation, on a nonempty list. -/
def npPercentile (x : List α) (q : α) : Py α := do
  let s := x.mergeSort (fun a b => decide (a ≤ b))
  let v := q / 100.0 * PyNum.ofInt (s.length - 1)
  let lo := PyNum.floor v
  let a ← pyGet s lo
  let b ← pyGet s (min (lo + 1) (s.length - 1))
  pure (a + (b - a) * (v - PyNum.ofInt lo))

/-- `terrain_module.py` 100-119. -/
def interdecileRange (x : List α) : Py Int := do
  let q90 ← npPercentile x 90.0
  let q10 ← npPercentile x 10.0
  pure (PyNum.roundInt (q90 - q10))

end Itm
