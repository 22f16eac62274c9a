import Verif.Model.State
import Verif.Model.Diffraction

/-! `src/itmlogic/statistics` -/

namespace Itm
variable {α : Type} [PyNum α]

/-- `statistics/curv.py` 2-15. The denominators `x3`, `x1` are table constants (nonzero). -/
def curv (c1 c2 x1 x2 x3 de : α) : α :=
  (c1 + c2 / (1.0 + npow ((de - x2) / x3) 2)) *
    npow (de / x1) 2 / (1.0 + npow (de / x1) 2)

/-- The tables of `avar.py` 38-60, transposed: entry `k` holds the constants of climate `k + 1`. -/
def climates : List (Climate α) :=
  [ { cv1 := -9.67, cv2 := 12.7, yv1 := 144.9e3, yv2 := 190.3e3, yv3 := 133.8e3,
      csm1 := 2.13, csm2 := 159.5, ysm1 := 762.2e3, ysm2 := 123.6e3, ysm3 := 94.5e3,
      csp1 := 2.11, csp2 := 102.3, ysp1 := 636.9e3, ysp2 := 134.8e3, ysp3 := 95.6e3,
      csd1 := 1.224, zd := 1.282, cfm1 := 1.0, cfm2 := 0.0, cfm3 := 0.0,
      cfp1 := 1.0, cfp2 := 0.0, cfp3 := 0.0 },
    { cv1 := -0.62, cv2 := 9.19, yv1 := 228.9e3, yv2 := 205.2e3, yv3 := 143.6e3,
      csm1 := 2.66, csm2 := 7.67, ysm1 := 100.4e3, ysm2 := 172.5e3, ysm3 := 136.4e3,
      csp1 := 6.87, csp2 := 15.53, ysp1 := 138.7e3, ysp2 := 143.7e3, ysp3 := 98.6e3,
      csd1 := 0.801, zd := 2.161, cfm1 := 1.0, cfm2 := 0.0, cfm3 := 0.0,
      cfp1 := 0.93, cfp2 := 0.31, cfp3 := 2.00 },
    { cv1 := 1.26, cv2 := 15.5, yv1 := 262.6e3, yv2 := 185.2e3, yv3 := 99.8e3,
      csm1 := 6.11, csm2 := 6.65, ysm1 := 138.2e3, ysm2 := 242.2e3, ysm3 := 178.6e3,
      csp1 := 10.08, csp2 := 9.60, ysp1 := 165.3e3, ysp2 := 225.7e3, ysp3 := 129.7e3,
      csd1 := 1.380, zd := 1.282, cfm1 := 1.0, cfm2 := 0.0, cfm3 := 0.0,
      cfp1 := 1.0, cfp2 := 0.0, cfp3 := 0.0 },
    { cv1 := -9.21, cv2 := 9.05, yv1 := 84.1e3, yv2 := 101.1e3, yv3 := 98.6e3,
      csm1 := 1.98, csm2 := 13.11, ysm1 := 139.1e3, ysm2 := 132.7e3, ysm3 := 193.5e3,
      csp1 := 3.68, csp2 := 159.3, ysp1 := 464.4e3, ysp2 := 93.1e3, ysp3 := 94.2e3,
      csd1 := 1.000, zd := 20.0, cfm1 := 1.0, cfm2 := 0.0, cfm3 := 0.0,
      cfp1 := 0.93, cfp2 := 0.19, cfp3 := 1.79 },
    { cv1 := -0.62, cv2 := 9.19, yv1 := 228.9e3, yv2 := 205.2e3, yv3 := 143.6e3,
      csm1 := 2.68, csm2 := 7.16, ysm1 := 93.7e3, ysm2 := 186.8e3, ysm3 := 133.5e3,
      csp1 := 4.75, csp2 := 8.12, ysp1 := 93.2e3, ysp2 := 135.9e3, ysp3 := 113.4e3,
      csd1 := 1.224, zd := 1.282, cfm1 := 0.92, cfm2 := 0.25, cfm3 := 1.77,
      cfp1 := 0.93, cfp2 := 0.31, cfp3 := 2.00 },
    { cv1 := -0.39, cv2 := 2.86, yv1 := 141.7e3, yv2 := 315.9e3, yv3 := 167.4e3,
      csm1 := 6.86, csm2 := 10.38, ysm1 := 187.8e3, ysm2 := 169.6e3, ysm3 := 108.9e3,
      csp1 := 8.58, csp2 := 13.97, ysp1 := 216.0e3, ysp2 := 152.0e3, ysp3 := 122.7e3,
      csd1 := 1.518, zd := 1.282, cfm1 := 1.0, cfm2 := 0.0, cfm3 := 0.0,
      cfp1 := 1.0, cfp2 := 0.0, cfp3 := 0.0 },
    { cv1 := 3.15, cv2 := 857.9, yv1 := 2222.0e3, yv2 := 164.8e3, yv3 := 116.3e3,
      csm1 := 8.51, csm2 := 169.8, ysm1 := 609.8e3, ysm2 := 119.9e3, ysm3 := 106.6e3,
      csp1 := 8.43, csp2 := 8.19, ysp1 := 136.2e3, ysp2 := 188.5e3, ysp3 := 122.9e3,
      csd1 := 1.518, zd := 1.282, cfm1 := 1.0, cfm2 := 0.0, cfm3 := 0.0,
      cfp1 := 1.0, cfp2 := 0.0, cfp3 := 0.0 } ]

/-- `avar.py` 66-93 (`lvar > 4`): climate code repair and table lookup. -/
def avarClimate (p : PropSt α) : Py (PropSt α) :=
  if 4 < p.lvar then do
    let klim ← need p.klim "klim"
    let p := if klim ≤ 0 ∨ 7 < klim then { p with klim := some 5, kwx := max p.kwx 2 } else p
    let klim ← need p.klim "klim"
    let c ← pyGet climates (klim - 1)
    pure { p with clim := some c }
  else pure p

/-- `avar.py` 97-110: decoding of `mdvar`, as `(kdv, ws, wl, impossible?)`. -/
def decodeMode (mdvar : Int) : VarMode × Bool :=
  let kdv := mdvar
  let ws := decide (20 ≤ kdv)
  let kdv := if ws then kdv - 20 else kdv
  let wl := decide (10 ≤ kdv)
  let kdv := if wl then kdv - 10 else kdv
  if kdv < 0 ∨ 3 < kdv then ({ kdv := 0, ws, wl }, true) else ({ kdv, ws, wl }, false)

/-- `avar.py` 95-110 (`lvar > 3`). -/
def avarMode (p : PropSt α) : Py (PropSt α) :=
  if 3 < p.lvar then do
    let mdvar ← need p.mdvar "mdvar"
    let (m, bad) := decodeMode mdvar
    pure { p with vmode := some m, kwx := if bad then max p.kwx 2 else p.kwx }
  else pure p

/-- `avar.py` 114-124: the frequency gains for a wave number. -/
def freqGain (c : Climate α) (wn : α) : Py (FreqGain α) := do
  let q ← npLog (0.133 * wn)
  let gm := c.cfm1 + (← c.cfm2 /! (npow (c.cfm3 * q) 2 + 1.0))
  let gp := c.cfp1 + (← c.cfp2 /! (npow (c.cfp3 * q) 2 + 1.0))
  pure { gm, gp }

/-- `avar.py` 112-124 (`lvar > 2`). -/
def avarFreq (p : PropSt α) : Py (PropSt α) :=
  if 2 < p.lvar then do
    let c ← need p.clim "cfm1"
    let g ← freqGain c p.wn
    pure { p with fgain := some g }
  else pure p

/-- `avar.py` 128-132. -/
def dexaOf (he : Pair α) (wn : α) : Py α := do
  let a ← mathSqrt (18e6 * he.x0)
  let b ← mathSqrt (18e6 * he.x1)
  let c ← pyPow (← 575.7e12 /! wn) third
  pure (a + b + c)

/-- `avar.py` 126-132 (`lvar > 1`). -/
def avarDexa (p : PropSt α) : Py (PropSt α) :=
  if 1 < p.lvar then do
    let x ← dexaOf p.he p.wn
    pure { p with dexa := some x }
  else pure p

/-- `avar.py` 134-138: effective distance. -/
def effDist (dist dexa : α) : Py α :=
  if dist < dexa then (130e3 * dist) /! dexa
  else pure (130e3 + dist - dexa)

/-- `avar.py` 157-164: standard deviation of location variability. -/
def sglOf (wl : Bool) (dist dh wn : α) : Py α :=
  if wl then pure 0.0
  else do
    let q := (1.0 - 0.8 * PyNum.exp (-dist / 50e3)) * dh * wn
    (10.0 * q) /! (q + 13.0)

/-- `avar.py` 134-169: the distance dependent coefficients. -/
def varCoef (c : Climate α) (m : VarMode) (g : FreqGain α) (dexa dist dh wn : α) : Py (VarC α) := do
  let de ← effDist dist dexa
  let vmd := curv c.cv1 c.cv2 c.yv1 c.yv2 c.yv3 de
  let sgtm := curv c.csm1 c.csm2 c.ysm1 c.ysm2 c.ysm3 de * g.gm
  let sgtp := curv c.csp1 c.csp2 c.ysp1 c.ysp2 c.ysp3 de * g.gp
  let sgtd := sgtp * c.csd1
  let tgtd := (sgtp - sgtd) * c.zd
  let sgl ← sglOf m.wl dist dh wn
  let vs0 := if m.ws then 0.0 else npow (5.0 + 3.0 * PyNum.exp (-de / 100e3)) 2
  pure { vmd, sgtm, sgtp, sgtd, tgtd, sgl, vs0 }

/-- `avar.py` 134-171 and the reset of `lvar`. -/
def avarDist (p : PropSt α) : Py (PropSt α) := do
  let dexa ← need p.dexa "dexa"
  let c ← need p.clim "cv1"
  let g ← need p.fgain "gm"
  let m ← need p.vmode "wl"
  let v ← varCoef c m g dexa p.dist p.dh p.wn
  pure { p with varc := some v, lvar := 0 }

/-- `avar.py` 65-171: bring the cached coefficients up to date. -/
def avarSetup (p : PropSt α) : Py (PropSt α) :=
  if 0 < p.lvar then do
    let p ← avarClimate p
    let p ← avarMode p
    let p ← avarFreq p
    let p ← avarDexa p
    avarDist p
  else pure p

/-- `avar.py` 173-183: the deviates actually used, `(zt, zl, zc)`. -/
def avarDeviates (kdv : Int) (zzt zzl zzc : α) : α × α × α :=
  if kdv = 0 then (zzc, zzc, zzc)
  else if kdv = 1 then (zzt, zzc, zzc)
  else if kdv = 2 then (zzt, zzt, zzc)
  else (zzt, zzl, zzc)

/-- `avar.py` 188-193: standard deviation of time variability. -/
def sgtOf (zd : α) (v : VarC α) (zt : α) : Py α :=
  if zt < 0.0 then pure v.sgtm
  else if zt ≤ zd then pure v.sgtp
  else do pure (v.sgtd + (← v.tgtd /! zt))

/-- `avar.py` 195-198: `vs` (`rt = 7.8`, `rl = 24`). -/
def vsOf (v : VarC α) (sgt zt zl zc : α) : Py α := do
  let a ← npow (sgt * zt) 2 /! (7.8 + npow zc 2)
  let b ← npow (v.sgl * zl) 2 /! (24.0 + npow zc 2)
  pure (v.vs0 + a + b)

/-- `avar.py` 200-211: `(yr, sgc)`. -/
def yrSgc (kdv : Int) (v : VarC α) (sgt zt zl vs : α) : Py (α × α) :=
  if kdv = 0 then do
    let s ← mathSqrt (npow sgt 2 + npow v.sgl 2 + vs)
    pure (0.0, s)
  else if kdv = 1 then do
    let s ← mathSqrt (npow v.sgl 2 + vs)
    pure (sgt * zt, s)
  else if kdv = 2 then do
    let y ← mathSqrt (npow sgt 2 + npow v.sgl 2)
    let s ← mathSqrt vs
    pure (y * zt, s)
  else do
    let s ← mathSqrt vs
    pure (sgt * zt + v.sgl * zl, s)

/-- `avar.py` 215-216: softening of negative values. -/
def soften (a : α) : Py α :=
  if a < 0.0 then (a * (29.0 - a)) /! (29.0 - 10.0 * a) else pure a

/-- `avar.py` 173-216: the quantile from the cached coefficients. -/
def avarQuantile (kdv : Int) (zd : α) (v : VarC α) (aref zzt zzl zzc : α) : Py α := do
  let (zt, zl, zc) := avarDeviates kdv zzt zzl zzc
  let sgt ← sgtOf zd v zt
  let vs ← vsOf v sgt zt zl zc
  let (yr, sgc) ← yrSgc kdv v sgt zt zl vs
  soften (aref - v.vmd - yr - sgc * zc)

/-- `avar.py` 185-186: the warning about extreme deviates. -/
def avarKwx (kdv : Int) (zzt zzl zzc : α) (kwx : Int) : Int :=
  let (zt, zl, zc) := avarDeviates kdv zzt zzl zzc
  if 3.10 < PyNum.abs zt ∨ 3.10 < PyNum.abs zl ∨ 3.10 < PyNum.abs zc then max kwx 1 else kwx

/-- `statistics/avar.py` 6-218. -/
def avar (zzt zzl zzc : α) (p : PropSt α) : Py (α × PropSt α) := do
  let p ← avarSetup p
  let m ← need p.vmode "kdv"
  let p := { p with kwx := avarKwx m.kdv zzt zzl zzc p.kwx }
  let c ← need p.clim "zd"
  let v ← need p.varc "sgtm"
  let aref ← need p.aref "aref"
  let a ← avarQuantile m.kdv c.zd v aref zzt zzl zzc
  pure (a, p)

end Itm
