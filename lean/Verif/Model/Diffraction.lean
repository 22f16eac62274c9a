import Verif.Model.State

/-! `src/itmlogic/diffraction_attenuation` -/

namespace Itm
variable {α : Type} [PyNum α]

/-- `diffraction_attenuation/aknfe.py` 4-30. -/
def aknfe (v2 : α) : Py α :=
  if v2 < 5.76 then do
    let v2 := if v2 ≤ 0.0 then 0.00001 else v2
    let s ← mathSqrt v2
    pure (6.02 + 9.11 * s - 1.27 * v2)
  else do
    let l ← npLog v2
    pure (12.953 + 4.343 * l)

/-- `diffraction_attenuation/fht.py` 4-44. -/
def fht (x pk : α) : Py α :=
  if x < 200.0 then do
    let lp ← npLog pk
    let w := -lp
    if pk < 1e-5 ∨ 5495.0 < x * npow w 3 then
      if 1.0 < x then do
        let l ← npLog x
        pure (17.372 * l + -117.0)
      else
        pure (-117.0)
    else do
      let f ← (2.5e-5 * npow x 2) /! pk
      pure (f - 8.686 * w - 15.0)
  else do
    let l ← npLog x
    let f := 0.05751 * x - 4.343 * l
    if x < 2000.0 then
      let w := 0.0134 * x * PyNum.exp (-0.005 * x)
      pure ((1.0 - w) * f + w * (17.372 * l - 117.0))
    else
      pure f

/-- `third = 1 / 3` (`adiff.py` 34, `lrprop.py` 33, `avar.py` 36). -/
def third : α := 1.0 / 3.0

/-- One turn of the loop `adiff.py` 59-67: the pair `(q, fht(q, pk))` for a terminal. -/
def adiffTerm (wn qk dl he : α) : Py (α × α) := do
  let a ← (0.5 * npow dl 2) /! he
  let wa ← pyPow (a * wn) third
  let pk ← qk /! wa
  let q ← ((1.607 - pk) * 151.0 * wa * dl) /! a
  let f ← fht q pk
  pure (q, f)

/-- `adiff(0, prop)`, `adiff.py` 36-69: the six set-up constants (the returned value is 0).
Reads `dla`, `tha`, `dlsa` written just before by `lrprop`. -/
def adiffInit (p : PropSt α) : Py (α × PropSt α) := do
  let h ← need p.hor "dla"
  let q := p.hg.x0 * p.hg.x1
  let qk := p.he.x0 * p.he.x1 - q
  let q := if p.mdp < 0 then q + 10.0 else q
  let wd1 ← mathSqrt (1.0 + (← qk /! q))
  let xd1 := h.dla + (← h.tha /! p.gme)
  let q := (1.0 - 0.8 * PyNum.exp (-h.dlsa / 50e3)) * p.dh
  let q := 0.78 * q * PyNum.exp (-(← pyPow (q / 16.0) 0.25))
  let l ← npLog (1.0 + 4.77e-4 * p.hg.x0 * p.hg.x1 * p.wn * q)
  let afo := pyMin 15.0 (2.171 * l)
  let qk ← 1.0 /! p.zgnd.abs
  let (q0, f0) ← adiffTerm p.wn qk p.dl.x0 p.he.x0
  let (q1, f1) ← adiffTerm p.wn qk p.dl.x1 p.he.x1
  let xht := 0.0 + q0 + q1
  let aht := 20.0 + f0 + f1
  pure (0.0, { p with diff := some { qk, wd1, xd1, afo, aht, xht } })

/-- The two attenuations blended by `adiff` at distance `d` (`adiff.py` 73-94):
`(rounded earth ar, double knife edge)`. -/
def adiffParts (d : α) (p : PropSt α) : Py (α × α) := do
  let h ← need p.hor "tha"
  let c ← need p.diff "qk"
  let th := h.tha + d * p.gme
  let ds := d - h.dla
  let q := 0.0795775 * p.wn * ds * npow th 2
  let k0 ← aknfe (← (q * p.dl.x0) /! (ds + p.dl.x0))
  let k1 ← aknfe (← (q * p.dl.x1) /! (ds + p.dl.x1))
  let adiff1 := k0 + k1
  let a ← ds /! th
  let wa ← pyPow (a * p.wn) third
  let pk ← c.qk /! wa
  let q := (1.607 - pk) * 151.0 * wa * th + c.xht
  let l ← npLog q
  let ar := 0.05751 * q - 4.343 * l - c.aht
  pure (ar, adiff1)

/-- The blending weight `wd` (`adiff.py` 96-102). -/
def adiffWeight (d : α) (p : PropSt α) : Py α := do
  let c ← need p.diff "wd1"
  let q := (c.wd1 + (← c.xd1 /! d)) *
    pyMin ((1.0 - 0.8 * PyNum.exp (-d / 50e3)) * p.dh * p.wn) 6283.2
  let s ← mathSqrt q
  25.1 /! (25.1 + s)

/-- `diffraction_attenuation/adiff.py` 7-106 (line numbers of the file; `d != 0` branch 71-104). -/
def adiff (d : α) (p : PropSt α) : Py (α × PropSt α) :=
  if pyEq d 0.0 then adiffInit p
  else do
    let (ar, ke) ← adiffParts d p
    let wd ← adiffWeight d p
    let c ← need p.diff "afo"
    pure (ar * wd + (1.0 - wd) * ke + c.afo, p)

end Itm
