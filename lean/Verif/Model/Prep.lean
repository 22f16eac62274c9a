import Verif.Model.Misc
import Verif.Model.Lrprop

/-! `src/itmlogic/preparatory_subroutines` -/

namespace Itm
variable {α : Type} [PyNum α]

/-- `np.sqrt(x)`: nan for negative `x` (no exception); the model stops. -/
def npSqrt (x : α) : Py α := if x < 0.0 then .error .nonFinite else .ok (PyNum.sqrt x)

/-! ### zlsq1 -/

/-- The loop `zlsq1.py` 50-54, `k` turns left: returns the final `(a, b)`. -/
def zlsqLoop (p : Pfl α) : Nat → Int → α → α → α → Py (α × α)
  | 0, _, _, a, b => pure (a, b)
  | k + 1, ja, x, a, b => do
    let ja := ja + 1
    let x := x + 1.0
    let z ← p.get (ja + 2)
    let a := a + z
    let z' ← p.get (ja + 2)
    let b := b + z' * x
    zlsqLoop p k ja x a b

/-- `zlsq1.py` 31-38: the first and last sample number of the window. -/
def zlsqWindow (p : Pfl α) (x1 x2 : α) : Py (Int × Int) := do
  let xn := p.np
  let xa := pyInt (pyMax (← x1 /! p.xi) 0.0)
  let xb := xn - pyInt (pyMax (PyNum.ofInt xn - (← x2 /! p.xi)) 0.0)
  if xb ≤ xa then
    pure (max (xa - 1) 0, xn - max (xn - xb + 1) 0)
  else
    pure (xa, xb)

/-- `zlsq1.py` 40-62 for the sample window `ja..jb`. -/
def zlsqFit (p : Pfl α) (ja jb : Int) : Py (α × α) := do
  let xn := p.np
  let n := jb - ja
  let xa := jb - ja
  let x := -0.5 * PyNum.ofInt xa
  let xb := PyNum.ofInt jb + x
  let za ← p.get (ja + 2)
  let zb ← p.get (jb + 2)
  let a := 0.5 * (za + zb)
  let b := 0.5 * (za - zb) * x
  let (a, b) ← zlsqLoop p (n - 1).toNat ja x a b
  let a := if xa = 0 then 0.0 else a / PyNum.ofInt xa
  let b ← (b * 12.0) /! PyNum.ofInt ((xa * xa + 2) * xa)
  pure (a - b * xb, a + b * (PyNum.ofInt xn - xb))

/-- `preparatory_subroutines/zlsq1.py` 3-65. -/
def zlsq1 (p : Pfl α) (x1 x2 : α) : Py (α × α) := do
  let (ja, jb) ← zlsqWindow p x1 x2
  zlsqFit p ja jb

/-! ### dlthx -/

/-- `while xa > 0 and k < np` (`dlthx.py` 46-48). -/
def dlthxSkip (np : Int) (xa : α) (k : Int) : α × Int :=
  if 0.0 < xa ∧ k < np then dlthxSkip np (xa - 1.0) (k + 1) else (xa, k)
termination_by (np - k).toNat
decreasing_by omega

/-- `dlthx.py` 50-53: one interpolated elevation. -/
def dlthxSample (p : Pfl α) (xa : α) (k : Int) : Py α :=
  if k + 2 ≤ p.len then do
    let z ← p.get (k + 2)
    let z' ← p.get (k + 1)
    pure (z + (z - z') * xa)
  else do
    let z ← p.get (p.len - 1)
    let z' ← p.get (p.len - 2)
    pure (z + (z - z') * xa)

/-- The loop `dlthx.py` 44-55 with `j` turns left. -/
def dlthxResample (p : Pfl α) (step : α) : Nat → α → Int → Py (List α)
  | 0, _, _ => pure []
  | j + 1, xa, k => do
    let (xa, k) := dlthxSkip p.np xa k
    let v ← dlthxSample p xa k
    let rest ← dlthxResample p step j (xa + step) k
    pure (v :: rest)

/-- The loop `dlthx.py` 61-63: subtract the fitted line. -/
def dlthxDetrend (step : α) : List α → α → List α
  | [], _ => []
  | v :: vs, xa => (v - xa) :: dlthxDetrend step vs (xa + step)

/-- `ka` of `dlthx.py` 33-34. -/
def dlthxKa (xa xb : α) : Int := min (max 4 (pyInt (0.1 * (xb - xa + 8.0)))) 25

/-- `preparatory_subroutines/dlthx.py` 5-69. -/
def dlthx (p : Pfl α) (x1 x2 : α) : Py α := do
  let xa ← x1 /! p.xi
  let xb ← x2 /! p.xi
  if 2.0 ≤ xb - xa then do
    let ka := dlthxKa xa xb
    let n := 10 * ka - 5
    let kb := n - ka + 1
    let sn := n - 1
    let step ← (xb - xa) /! PyNum.ofInt sn
    let k := pyInt (xa + 1.0)
    let s ← dlthxResample p step n.toNat (xa - PyNum.ofInt k) k
    let (xa, xb) ← zlsq1 { np := sn, xi := 1.0, z := s } 0.0 (PyNum.ofInt sn)
    let step ← (xb - xa) /! PyNum.ofInt sn
    let s := dlthxDetrend step s xa
    let hi ← qtile s (ka - 1)
    let lo ← qtile s (kb - 1)
    (hi - lo) /! (1.0 - 0.8 * PyNum.exp (-(x2 - x1) / 50e3))
  else
    pure 0.0

/-! ### hzns -/

/-- Loop state of `hzns.py` 40-62. -/
structure HzSt (α : Type) where
  sa : α
  sb : α
  the : Pair α
  dl : Pair α
  wq : Bool
deriving Repr

/-- One turn of the loop `hzns.py` 45-62. -/
def hznsStep (p : Pfl α) (qc za zb : α) (i : Int) (s : HzSt α) : Py (HzSt α) := do
  let xi := p.xi
  let sa := s.sa + xi
  let sb := s.sb - xi
  let z ← p.get (i + 1)
  let q := z - (qc * sa + s.the.x0) * sa - za
  let s := { s with sa, sb }
  let s ← if 0.0 < q then do
      let t ← q /! sa
      pure { s with the := ⟨s.the.x0 + t, s.the.x1⟩, dl := ⟨sa, s.dl.x1⟩, wq := false }
    else pure s
  if s.wq = false then do
    let z ← p.get (i + 1)
    let q := z - (qc * sb + s.the.x1) * sb - zb
    if 0.0 < q then do
      let t ← q /! sb
      pure { s with the := ⟨s.the.x0, s.the.x1 + t⟩, dl := ⟨s.dl.x0, sb⟩ }
    else pure s
  else pure s

/-- `for i in range(2, np + 1)` (`hzns.py` 45), `k` turns left. -/
def hznsLoop (p : Pfl α) (qc za zb : α) : Nat → Int → HzSt α → Py (HzSt α)
  | 0, _, s => pure s
  | k + 1, i, s => do
    let s ← hznsStep p qc za zb i s
    hznsLoop p qc za zb k (i + 1) s

/-- `preparatory_subroutines/hzns.py` 1-64: `(the, dl)`. -/
def hzns (p : Pfl α) (dist : α) (hg : Pair α) (gme : α) : Py (Pair α × Pair α) := do
  let za := (← p.get 2) + hg.x0
  let zb := (← p.get (p.np + 2)) + hg.x1
  let qc := 0.5 * gme
  let q := qc * dist
  let t ← (zb - za) /! dist
  let s : HzSt α := { sa := 0.0, sb := dist, the := ⟨t - q, -t - q⟩, dl := ⟨dist, dist⟩, wq := true }
  let s ← if 2 ≤ p.np then hznsLoop p qc za zb (p.np - 1).toNat 2 s else pure s
  pure (s.the, s.dl)

/-! ### qlra -/

/-- `qlra.py` 30-45: effective height of one terminal. -/
def qlraHe (kst : Int) (hg dh : α) : α :=
  if kst ≤ 0 then hg
  else
    let q : α := 4.0
    let q := if kst ≠ 1 then 9.0 else q
    let q := if hg < 5.0 then q * PyNum.sin (0.3141593 * hg) else q
    hg + (1.0 + q) * PyNum.exp (-(pyMin 20.0 (2.0 * hg / pyMax 1e-3 dh)))

/-- `qlra.py` 47-57: horizon distance and angle of one terminal. -/
def qlraHorizon (he gme dh : α) : Py (α × α) := do
  let q ← npSqrt (← (2.0 * he) /! gme)
  let s ← npSqrt (dh / pyMax he 5.0)
  let dl := q * PyNum.exp (-0.07 * s)
  let the ← (0.65 * dh * ((← q /! dl) - 1.0) - 2.0 * he) /! q
  pure (dl, the)

/-- `qlra.py` 59-68 and `qlrpfl.py` 77-86: `lvar`, `mdvar`, `klim`. -/
def prepMarks (p : PropSt α) : PropSt α :=
  let p := { p with lvar := max p.lvar 3 }
  let p := if 0 ≤ p.mdvarx then { p with mdvar := some p.mdvarx, lvar := max p.lvar 4 } else p
  if 0 < p.klimx then { p with klim := some p.klimx, lvar := 5 } else p

/-- `preparatory_subroutines/qlra.py` 4-70. -/
def qlra (kst : Pair Int) (p : PropSt α) : Py (PropSt α) := do
  let he0 := qlraHe kst.x0 p.hg.x0 p.dh
  let (dl0, the0) ← qlraHorizon he0 p.gme p.dh
  let he1 := qlraHe kst.x1 p.hg.x1 p.dh
  let (dl1, the1) ← qlraHorizon he1 p.gme p.dh
  pure (prepMarks { p with he := ⟨he0, he1⟩, dl := ⟨dl0, dl1⟩, the := ⟨the0, the1⟩, mdp := 1 })

/-! ### qlrpfl -/

/-- `qlrpfl.py` 46-49 (and 57-60): horizon distance over irregular terrain. -/
def pflDl (he gme dh : α) : Py α := do
  let a ← mathSqrt (← (2.0 * he) /! gme)
  let b ← mathSqrt (dh / pyMax he 5.0)
  pure (a * PyNum.exp (-0.07 * b))

/-- `qlrpfl.py` 63-67: horizon angle. -/
def pflThe (he dl gme dh : α) : Py α := do
  let q ← mathSqrt (← (2.0 * he) /! gme)
  (0.65 * dh * ((← q /! dl) - 1.0) - 2.0 * he) /! q

/-- `qlrpfl.py` 40-67: line-of-sight profiles. Line 43 reads `pfl[np+1]`. -/
def pflLos (p : PropSt α) (xl : Pair α) : Py (PropSt α) := do
  let (za, zb) ← zlsq1 p.pfl xl.x0 xl.x1
  let he0 := p.hg.x0 + pyMax ((← p.pfl.get 2) - za) 0.0
  let he1 := p.hg.x1 + pyMax ((← p.pfl.get (p.pfl.np + 1)) - zb) 0.0
  let dl0 ← pflDl he0 p.gme p.dh
  let dl1 ← pflDl he1 p.gme p.dh
  let q := dl0 + dl1
  let (he0, he1, dl0, dl1) ←
    if q ≤ p.dist then do
      let q := npow (← p.dist /! q) 2
      let he0 := he0 * q
      let dl0 ← pflDl he0 p.gme p.dh
      let he1 := he1 * q
      let dl1 ← pflDl he1 p.gme p.dh
      pure (he0, he1, dl0, dl1)
    else pure (he0, he1, dl0, dl1)
  let the0 ← pflThe he0 dl0 p.gme p.dh
  let the1 ← pflThe he1 dl1 p.gme p.dh
  pure { p with he := ⟨he0, he1⟩, dl := ⟨dl0, dl1⟩, the := ⟨the0, the1⟩ }

/-- `qlrpfl.py` 69-75: obstructed profiles. -/
def pflObs (p : PropSt α) (xl : Pair α) : Py (PropSt α) := do
  let (za, _) ← zlsq1 p.pfl xl.x0 (0.9 * p.dl.x0)
  let (_, zb) ← zlsq1 p.pfl (p.dist - 0.9 * p.dl.x1) xl.x1
  let he0 := p.hg.x0 + pyMax ((← p.pfl.get 2) - za) 0.0
  let he1 := p.hg.x1 + pyMax ((← p.pfl.get (p.pfl.np + 2)) - zb) 0.0
  pure { p with he := ⟨he0, he1⟩ }

/-- `qlrpfl.py` 23-86: the parameter preparation, everything before the call of `lrprop`. -/
def qlrpflPrep (p : PropSt α) : Py (PropSt α) := do
  let dist := PyNum.ofInt p.pfl.np * p.pfl.xi
  let (the, dl) ← hzns p.pfl dist p.hg p.gme
  let xl0 := pyMin (15.0 * p.hg.x0) (0.1 * dl.x0)
  let xl1 := pyMin (15.0 * p.hg.x1) (0.1 * dl.x1)
  let xl : Pair α := ⟨xl0, dist - xl1⟩
  let dh ← dlthx p.pfl xl.x0 xl.x1
  let p := { p with dist, the, dl, dh }
  let p ← if 1.5 * dist ≤ dl.x0 + dl.x1 then pflLos p xl else pflObs p xl
  pure (prepMarks { p with mdp := -1 })

/-- `preparatory_subroutines/qlrpfl.py` 7-90. -/
def qlrpfl (p : PropSt α) : Py (PropSt α) := do
  let p ← qlrpflPrep p
  lrprop 0.0 p

/-! ### qlrps -/

/-- What `qlrps` returns. -/
structure Qlrps (α : Type) where
  wn : α
  gme : α
  ens : α
  zgnd : Cx α
deriving Repr

/-- `qlrps.py` 37 (also `p2p.py` 149, `area.py` 155, `pimter.py` 100): effective curvature. -/
def effCurvature (gma ens : α) : α := gma * (1.0 - 0.04665 * PyNum.exp (ens / 179.3))

/-- `qlrps.py` 39: `complex(eps, 376.62 * sgm / wn)`. -/
def groundZq (eps sgm wn : α) : Py (Cx α) := do
  pure ⟨eps, ← (376.62 * sgm) /! wn⟩

/-- `preparatory_subroutines/qlrps.py` 4-47. -/
def qlrps (fmhz zsys en0 : α) (ipol : Int) (eps sgm : α) : Py (Qlrps α) := do
  let gma : α := 157e-9
  let wn := fmhz / 47.7
  let ens := en0
  let ens := if ¬ pyEq zsys 0.0 then ens * PyNum.exp (-zsys / 9460.0) else ens
  let gme := effCurvature gma ens
  let zq ← groundZq eps sgm wn
  let zgnd := Cx.sqrt (Cx.sub zq ⟨1.0, 0.0⟩)
  let zgnd ← if ipol ≠ 0 then Cx.div zgnd zq else pure zgnd
  pure { wn, gme, ens, zgnd }

end Itm
