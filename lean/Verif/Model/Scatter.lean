import Verif.Model.State

/-! `src/itmlogic/scatter_attenuation` -/

namespace Itm
variable {α : Type} [PyNum α]

/-- `scatter_attenuation/ahd.py` 3-36. -/
def ahd (td : α) : Py α := do
  let (a, b, c) : α × α × α :=
    if td ≤ 10e3 then (133.4, 0.332e-3, -4.343)
    else if td ≤ 70e3 then (104.6, 0.212e-3, -1.086)
    else (71.8, 0.157e-3, 2.171)
  let l ← npLog td
  pure (a + b * td + c * l)

/-- The list `a` of `h0f.py` 23. -/
def h0fA : List α := [25.0, 80.0, 177.0, 395.0, 705.0]
/-- The list `b` of `h0f.py` 24. -/
def h0fB : List α := [24.0, 45.0, 68.0, 80.0, 105.0]

/-- `4.343 * np.log((a[i] * x + b[i]) * x + 1)` (`h0f.py` 40 and 44-45). -/
def h0fRow (i : Int) (x : α) : Py α := do
  let a ← pyGet h0fA i
  let b ← pyGet h0fB i
  let l ← npLog ((a * x + b) * x + 1.0)
  pure (4.343 * l)

/-- `scatter_attenuation/h0f.py` 3-48. -/
def h0f (r et : α) : Py α := do
  let it := PyNum.floor et
  let (it, q) : Int × α :=
    if it ≤ 0 then (1, 0.0)
    else if 5 ≤ it then (5, 0.0)
    else (it, et - PyNum.ofInt it)
  let x := npow (← 1.0 /! r) 2
  let h ← h0fRow (it - 1) x
  if ¬ pyEq q 0.0 then do
    let h' ← h0fRow it x
    pure ((1.0 - q) * h + q * h')
  else
    pure h

/-- `ascat.py` 29-33: the scatter parameters `(th, r1, r2)`. -/
def ascatR (d : α) (p : PropSt α) : α × α × α :=
  let th := p.the.x0 + p.the.x1 + d * p.gme
  let r2 := 2.0 * p.wn * th
  let r1 := r2 * p.he.x0
  let r2 := r2 * p.he.x1
  (th, r1, r2)

/-- `ascat.py` 38-62: the value of `h0` when it is computed afresh. -/
def ascatH0 (d : α) (p : PropSt α) (s : ScatPrep α) : Py α := do
  let (th, r1, r2) := ascatR d p
  let ss ← (d - s.ad) /! (d + s.ad)
  let q ← s.rr /! ss
  let ss := pyMax 0.1 ss
  let q := pyMin (pyMax 0.1 q) 10.0
  let z0 ← ((d - s.ad) * (d + s.ad) * th * 0.25) /! d
  let et := (s.etq * PyNum.exp (-(npow (pyMin 1.7 (z0 / 8.0e3)) 6)) + 1.0) * z0 / 1.7556e3
  let ett := pyMax et 1.0
  let h0 := ((← h0f r1 ett) + (← h0f r2 ett)) * 0.5
  let h0 := h0 + pyMin h0
    ((1.38 - (← npLog ett)) * (← npLog ss) * (← npLog q) * 0.49)
  let h0 := pyMax h0 0.0
  let h0 ← if et < 1.0 then do
      let t := npow ((1.0 + (← 1.4142 /! r1)) * (1.0 + (← 1.4142 /! r2))) 2 * (r1 + r2)
      let l ← npLog (← t /! (r1 + r2 + 2.8284))
      pure (et * h0 + (1.0 - et) * 4.343 * l)
    else pure h0
  pure (if 15.0 < h0 ∧ 0.0 ≤ s.h0s then s.h0s else h0)

/-- `ascat.py` 68-73: the final assignment to `prop['ascat1']`. -/
def ascatFinal (d h0 : α) (p : PropSt α) : Py α := do
  let h ← need p.hor "tha"
  let th := h.tha + d * p.gme
  let a ← ahd (th * d)
  let l ← npLog (47.7 * p.wn * npow th 4)
  pure (a + 4.343 * l - 0.1 * (p.ens - 301.0) * PyNum.exp (-th * d / 40e3) + h0)

/-- `scatter_attenuation/ascat.py` 6-75. -/
def ascat (d : α) (p : PropSt α) : Py (PropSt α) := do
  let s ← need p.sprep "h0s"
  let (h0, p) ←
    if 15.0 < s.h0s then
      pure (s.h0s, p)
    else do
      let (_, r1, r2) := ascatR d p
      -- lines 35-36: the inadmissible case only sets the key, the computation goes on
      let p := if r1 < 0.2 ∧ r2 < 0.2 then { p with ascat1 := 1001.0 } else p
      let h0 ← ascatH0 d p s
      -- lines 64-66
      if ¬ pyEq p.ascat1 1001.0 then
        pure (h0, { p with sprep := some { s with h0s := h0 } })
      else
        pure (h0, p)
  let a ← ascatFinal d h0 p
  pure { p with ascat1 := a }

end Itm
