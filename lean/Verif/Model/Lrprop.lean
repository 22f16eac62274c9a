import Verif.Model.Diffraction
import Verif.Model.Los
import Verif.Model.Scatter

/-! `src/itmlogic/lrprop.py`, stage by stage. -/

namespace Itm
variable {α : Type} [PyNum α]

/-- Lines 37-49: `dls`, `dlsa`, `dla`, `tha`. -/
def lrHorizon (p : PropSt α) : Py (Horizon α) := do
  let d0 ← mathSqrt (← (2.0 * p.he.x0) /! p.gme)
  let d1 ← mathSqrt (← (2.0 * p.he.x1) /! p.gme)
  let dla := p.dl.x0 + p.dl.x1
  pure { dls := ⟨d0, d1⟩, dlsa := d0 + d1, dla := dla,
         tha := pyMax (p.the.x0 + p.the.x1) (-dla * p.gme) }

/-- Lines 54-82: the parameter warnings, as the new value of `kwx`.
Line 65 compares `dl[1]` (not `dl[0]`) with `3*dls[0]`. -/
def lrKwx (p : PropSt α) (h : Horizon α) : Int :=
  let k := p.kwx
  let k := if p.wn < 0.838 ∨ 210.0 < p.wn then max k 1 else k
  let k := if p.hg.x0 < 1.0 ∨ 1000.0 < p.hg.x0 then max k 1 else k
  let k := if p.hg.x1 < 1.0 ∨ 1000.0 < p.hg.x1 then max k 1 else k
  let k := if 0.2 < PyNum.abs p.the.x0 ∨ p.dl.x0 < 0.1 * h.dls.x0 ∨ 3.0 * h.dls.x0 < p.dl.x1
    then max k 3 else k
  let k := if 0.2 < PyNum.abs p.the.x1 ∨ p.dl.x1 < 0.1 * h.dls.x1 ∨ 3.0 * h.dls.x1 < p.dl.x1
    then max k 3 else k
  let k := if p.ens < 250.0 ∨ 400.0 < p.ens ∨ p.gme < 75e-9 ∨ 250e-9 < p.gme ∨
      p.zgnd.re < PyNum.abs p.zgnd.im ∨ p.wn < 0.419 ∨ 420.0 < p.wn
    then 4 else k
  let k := if p.hg.x0 < 0.5 ∨ 3000.0 < p.hg.x0 then 4 else k
  let k := if p.hg.x1 < 0.5 ∨ 3000.0 < p.hg.x1 then 4 else k
  k

/-- Lines 84-102 (after `adiff(0, prop)` of line 86): the diffraction line and `dmin`, `xae`, `wis`.
`dmin` (line 84) is computed before line 86 in the code; it does not depend on it. -/
def lrLine (p : PropSt α) (h : Horizon α) : Py (DiffLine α) := do
  let dmin := PyNum.abs (p.he.x0 - p.he.x1) / 0.2
  let xae ← pyPow (p.wn * npow p.gme 2) (-third)
  let d3 := pyMax h.dlsa (1.3787 * xae + h.dla)
  let d4 := d3 + 2.7574 * xae
  let (a3, _) ← adiff d3 p
  let (a4, _) ← adiff d4 p
  let emd ← (a4 - a3) /! (d4 - d3)
  let aed := a3 - emd * d3
  let wis ← (0.021 : α) /! (0.021 + p.wn * p.dh / pyMax 10e3 h.dlsa)
  pure { dmin, xae, emd, aed, wis }

/-- Lines 35-102: set-up, done when `mdp != 0`. The two calls `adiff(d3)`, `adiff(d4)` return the
dictionary they were given unless `d3` or `d4` is 0, in which case they would redo `adiff(0)`
(same keys, same values); the model drops that write. -/
def lrInit (p : PropSt α) : Py (PropSt α) := do
  let h ← lrHorizon p
  let p := { p with hor := some h, wlos := false, wscat := false, kwx := lrKwx p h }
  let (_, p) ← adiffInit p
  let l ← lrLine p h
  pure { p with line := some l, ascat1 := 0.0 }

/-- Lines 104-106: in area mode take the argument as distance and mark the set-up as done. -/
def lrSetDist (d : α) (p : PropSt α) : PropSt α :=
  if 0 ≤ p.mdp then { p with mdp := 0, dist := d } else p

/-- Lines 108-114: distance warnings. -/
def lrDistKwx (p : PropSt α) : Py (PropSt α) :=
  if 0.0 < p.dist then do
    let l ← need p.line "dmin"
    let k := p.kwx
    let k := if 1000e3 < p.dist then max k 1 else k
    let k := if p.dist < l.dmin then max k 3 else k
    let k := if p.dist < 1e3 ∨ 2000e3 < p.dist then 4 else k
    pure { p with kwx := k }
  else pure p

/-- Lines 119-127: the three distances `d0`, `d1` of the line-of-sight fit (`d2 = dlsa`). -/
def losDists (p : PropSt α) (h : Horizon α) (l : DiffLine α) : Py (α × α) := do
  let d0 := 1.908 * p.wn * p.he.x0 * p.he.x1
  if 0.0 ≤ l.aed then
    let d0 := pyMin d0 (0.5 * h.dla)
    pure (d0, d0 + 0.25 * (h.dla - d0))
  else do
    let q ← (-l.aed) /! l.emd
    pure (d0, pyMax q (0.25 * h.dla))

/-- Lines 134-139: the logarithmic coefficient before sign repair. -/
def losAk2 (d0 d1 d2 a0 a1 a2 q : α) : Py α := do
  let l1 ← npLog (← d1 /! d0)
  let f ← ((d2 - d0) * (a1 - a0) - (d1 - d0) * (a2 - a0)) /! ((d2 - d0) * l1 - (d1 - d0) * q)
  pure (pyMax 0.0 f)

/-- Lines 143-149: the linear coefficient when `wq` holds, with the sign repair: `(ak1, ak2)`. -/
def losAk1 (d0 d2 a0 a2 q ak2 emd : α) : Py (α × α) := do
  let ak1 ← (a2 - a0 - ak2 * q) /! (d2 - d0)
  if ak1 < 0.0 then do
    let ak2 ← (pyMax (a2 - a0) 0.0) /! q
    if pyEq ak2 0.0 then pure (emd, ak2) else pure (0.0, ak2)
  else pure (ak1, ak2)

/-- Lines 151-155: the linear coefficient when `wq` fails. -/
def losPlain (d1 d2 a1 a2 emd : α) : Py (α × α) := do
  let ak1 ← (pyMax (a2 - a1) 0.0) /! (d2 - d1)
  if pyEq ak1 0.0 then pure (emd, 0.0) else pure (ak1, 0.0)

/-- Lines 119-157: the line-of-sight coefficients. -/
def losCoef (p : PropSt α) (h : Horizon α) (l : DiffLine α) : Py (LosC α) := do
  let d2 := h.dlsa
  let a2 := l.aed + d2 * l.emd
  let (d0, d1) ← losDists p h l
  let a1 ← alos d1 p
  let (ak1, ak2) ←
    if d0 < d1 then do
      let a0 ← alos d0 p
      let q ← npLog (← d2 /! d0)
      let ak2 ← losAk2 d0 d1 d2 a0 a1 a2 q
      if 0.0 ≤ l.aed ∨ 0.0 < ak2 then losAk1 d0 d2 a0 a2 q ak2 l.emd
      else losPlain d1 d2 a1 a2 l.emd
    else losPlain d1 d2 a1 a2 l.emd
  let lg ← npLog d2
  pure { ael := a2 - ak1 * d2 - ak2 * lg, ak1, ak2 }

/-- Lines 161-164: the line-of-sight attenuation at `dist`. -/
def losAref (c : LosC α) (dist : α) : Py α := do
  let lg ← npLog dist
  pure (c.ael + c.ak1 * dist + c.ak2 * lg)

/-- Lines 116-164. The assignment to `aref` (lines 160-164) is nested under `wlos == 0`. -/
def lrLos (p : PropSt α) : Py (PropSt α) := do
  let h ← need p.hor "dlsa"
  if p.dist < h.dlsa then
    if p.wlos = false then do
      let l ← need p.line "aed"
      let c ← losCoef p h l
      let p := { p with los := some c, wlos := true }
      if 0.0 < p.dist then do
        let a ← losAref c p.dist
        pure { p with aref := some a }
      else pure p
    else pure p
  else pure p

/-- Lines 169-180: `ad`, `rr`, `etq`, `h0s`. -/
def scatPrep (p : PropSt α) : Py (ScatPrep α) := do
  let ad := p.dl.x0 - p.dl.x1
  let rr ← p.he.x1 /! p.he.x0
  let (ad, rr) ← if ad < 0.0 then do
      pure (-ad, ← (1.0 : α) /! rr)
    else pure (ad, rr)
  pure { ad, rr, etq := (5.67e-6 * p.ens - 2.32e-3) * p.ens + 0.031, h0s := -15.0 }

/-- Lines 190-205: `ems`, `dx`, `aes` from the two scatter attenuations. -/
def scatCoef (p : PropSt α) (h : Horizon α) (l : DiffLine α) (d5 a5 a6 : α) : Py (ScatC α) :=
  if a5 < 1000.0 then do
    let ems := (a6 - a5) / 200e3
    let lg ← npLog (47.7 * p.wn)
    let x ← (a5 - l.aed - ems * d5) /! (l.emd - ems)
    let dx := pyMax (pyMax h.dlsa (h.dla + 0.3 * l.xae * lg)) x
    pure { ems, dx, aes := (l.emd - ems) * dx + l.aed }
  else
    pure { ems := l.emd, aes := l.aed, dx := 10e6 }

/-- Lines 168-207: compute the scatter coefficients if not yet done. -/
def lrScatSetup (p : PropSt α) (h : Horizon α) (l : DiffLine α) : Py (PropSt α) :=
  if p.wscat = false then do
    let s ← scatPrep p
    let p := { p with sprep := some s }
    let d5 := h.dla + 200e3
    let d6 := d5 + 200e3
    let p ← ascat d6 p
    let a6 := p.ascat1
    let p ← ascat d5 p
    let a5 := p.ascat1
    let c ← scatCoef p h l d5 a5 a6
    pure { p with scat := some c, wscat := true }
  else pure p

/-- Lines 209-212: attenuation beyond the horizon. -/
def farAref (l : DiffLine α) (c : ScatC α) (dist : α) : α :=
  if c.dx < dist then c.aes + c.ems * dist else l.aed + l.emd * dist

/-- Lines 166-212. -/
def lrScat (p : PropSt α) : Py (PropSt α) := do
  let h ← need p.hor "dlsa"
  if p.dist ≤ 0.0 ∨ h.dlsa ≤ p.dist then do
    let l ← need p.line "aed"
    let p ← lrScatSetup p h l
    let c ← need p.scat "dx"
    pure { p with aref := some (farAref l c p.dist) }
  else pure p

/-- Line 214. -/
def lrClamp (p : PropSt α) : Py (PropSt α) := do
  let a ← need p.aref "aref"
  pure { p with aref := some (pyMax a 0.0) }

/-- Lines 104-216: everything after the set-up. -/
def lrRun (d : α) (p : PropSt α) : Py (PropSt α) := do
  let p ← lrDistKwx (lrSetDist d p)
  let p ← lrLos p
  let p ← lrScat p
  lrClamp p

/-- `lrprop.py` 8-216. -/
def lrprop (d : α) (p : PropSt α) : Py (PropSt α) := do
  let p ← if p.mdp ≠ 0 then lrInit p else pure p
  lrRun d p

end Itm
