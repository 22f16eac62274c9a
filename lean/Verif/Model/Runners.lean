import Verif.Model.Prep
import Verif.Model.Stats

/-! The runners in `scripts/` (everything except file, raster and console access). -/

namespace Itm
variable {α : Type} [PyNum α]

/-- `x / 100` for an integer percentage. -/
def percent (x : Int) : α := PyNum.ofInt x / 100.0

/-- Free-space loss `8.685890 * np.log(2 * wn * dist)` (`p2p.py` 183, `area.py` 193, `pimter.py` 161). -/
def freeSpace (wn dist : α) : Py α := do
  let l ← npLog (2.0 * wn * dist)
  pure (8.685890 * l)

/-! ### scripts/p2p.py (and p2p_2tiles.py, whose `itmlogic_p2p` is identical) -/

/-- One result row of `itmlogic_p2p`. -/
structure P2PRow (α : Type) where
  distance_km : α
  reliability : Int
  confidence : Int
  loss : α
deriving Repr

/-- `qc` (`p2p.py` 77, 212). -/
def p2pQc : List Int := [50, 90, 10]
/-- `qr` (`p2p.py` 80, 215). -/
def p2pQr : List Int := [1, 10, 50, 90, 99]

/-- `p2p.py` 60-165: constants, profile and system parameters. -/
def p2pSetup (p : PropSt α) (profile : List α) : Py (PropSt α) := do
  let p := { p with eps := 15.0, sgm := 0.005, klim := some 5, ens0 := 314.0, lvar := 5, gma := 157e-9 }
  let np : Int := profile.length - 1
  -- 115-133 (`xkm = 0`, `zsys = 0`); line 130 `dkm // pfl[0]` raises if there is one point only
  let dkm := if p.d ≤ 0.0 then 0.0 * PyNum.ofInt np else p.d
  let xi ← (dkm * 1000.0) /! PyNum.ofInt np
  let p := { p with pfl := { np, xi, z := profile }, kwx := 0, wn := p.fmhz / 47.7, ens := p.ens0 }
  let p := { p with gme := effCurvature p.gma p.ens }
  let zq ← groundZq p.eps p.sgm p.wn
  let zgnd := Cx.sqrt (Cx.sub zq ⟨1.0, 0.0⟩)
  let zgnd ← if p.ipol ≠ 0 then Cx.div zgnd zq else pure zgnd
  pure { p with zgnd, klimx := 0, mdvarx := 11 }

/-- The loop over confidence levels at one reliability level (`p2p.py` 219-228). -/
def p2pInner (fs : α) (qr : Int) (zr : α) : List (Int × α) → PropSt α → Py (List (P2PRow α) × PropSt α)
  | [], p => pure ([], p)
  | (qc, zc) :: rest, p => do
    let (a, p) ← avar zr 0.0 zc p
    let row : P2PRow α := { distance_km := p.d, reliability := qr, confidence := qc, loss := fs + a }
    let (rows, p) ← p2pInner fs qr zr rest p
    pure (row :: rows, p)

/-- The double loop `p2p.py` 217-228. -/
def p2pRows (fs : α) (zc : List (Int × α)) : List (Int × α) → PropSt α → Py (List (P2PRow α) × PropSt α)
  | [], p => pure ([], p)
  | (qr, zr) :: rest, p => do
    let (r1, p) ← p2pInner fs qr zr zc p
    let (r2, p) ← p2pRows fs zc rest p
    pure (r1 ++ r2, p)

/-- Console messages of `p2p.py` 194-203. -/
inductive P2PMsg where
  | lineOfSight
  | singleHorizon
  | doubleHorizon
  | diffractionDominant
  | scatterDominant
deriving Repr, DecidableEq

/-- `p2p.py` 185-203: path classification. `prop['dx']` is read only in the `elif`. -/
def p2pReport (p : PropSt α) : Py (List P2PMsg) := do
  let h ← need p.hor "dlsa"
  let q := p.dist - h.dlsa
  let q := pyMax (q - 0.5 * p.pfl.xi) 0.0 - pyMax (-q - 0.5 * p.pfl.xi) 0.0
  let c := if q < 0.0 then P2PMsg.lineOfSight
    else if pyEq q 0.0 then P2PMsg.singleHorizon else P2PMsg.doubleHorizon
  if p.dist ≤ h.dlsa then
    pure [c, .diffractionDominant]
  else do
    let s ← need p.scat "dx"
    if s.dx < p.dist then pure [c, .scatterDominant] else pure [c]

/-- `scripts/p2p.py` 39-230: rows, console messages and the (mutated) dictionary, for requested
confidence levels `qc` and reliability levels `qr` (percent; the documentation tells the user to edit
the lists of lines 77 and 80, so they are a parameter). Both loops index `qc`, `qr` and the lists of
deviates together; `zip` is that pairing, the lists have equal length. Simplified: lines 205-215 print a
header from `qc[0]`, `qc[1]`, `qc[2]` (an `IndexError` with fewer than three confidence levels) and assign
both lists their shipped values again; `itmlogicP2PFull` (`Model/Scripts.lean`) has both. -/
def itmlogicP2PAt (qc qr : List Int) (p : PropSt α) (profile : List α) :
    Py (List (P2PRow α) × List P2PMsg × PropSt α) := do
  let p ← p2pSetup p profile
  let zr ← qerfi (qr.map percent)
  let zc ← qerfi (qc.map percent)
  let p ← qlrpfl p
  let fs ← freeSpace p.wn p.dist
  let msgs ← p2pReport p
  let (rows, p) ← p2pRows fs (qc.zip zc) (qr.zip zr) p
  pure (rows, msgs, p)

/-- `scripts/p2p.py` 39-230 as shipped. -/
def itmlogicP2P (p : PropSt α) (profile : List α) :
    Py (List (P2PRow α) × List P2PMsg × PropSt α) :=
  itmlogicP2PAt p2pQc p2pQr p profile

/-! ### scripts/area.py (and area_2tiles.py, whose `itmlogic_area` is identical) -/

/-- One result row of `itmlogic_area`. -/
structure AreaRow (α : Type) where
  distance_km : α
  confidence : Int
  loss : α
deriving Repr

/-- The distance grid constants of `area.py` 77-90, made a parameter (the documentation tells the
user to edit them). -/
structure Grid (α : Type) where
  d0 : α
  d1 : α
  ds1 : α
  d2 : α
  ds2 : α
deriving Repr

/-- The constants as shipped. -/
def gridDefault : Grid α := { d0 := 10.0, d1 := 150.0, ds1 := 10.0, d2 := 500.0, ds2 := 50.0 }

/-- Result of `area.py` 107-134. `ds = none` when the variable `DS` was never assigned. -/
structure Plan (α : Type) where
  d0 : α
  nd : Int
  ndc : Int
  ds : Option α
  ds2 : α
deriving Repr

/-- `area.py` 107-134. -/
def areaPlan (g : Grid α) : Plan α :=
  let d0 := if g.d0 ≤ 0.0 then g.ds1 else g.d0
  let d0 := if d0 ≤ 0.0 then 2.0 else d0
  let (nd, d1, ds) : Int × α × Option α :=
    if g.d1 ≤ d0 ∨ g.ds1 ≤ 0.0 then (1, d0, none)
    else
      let nd := PyNum.floor ((g.d1 - d0) / g.ds1 + 1.75)
      (nd, d0 + PyNum.ofInt (nd - 1) * g.ds1, some g.ds1)
  if g.d2 ≤ d1 ∨ g.ds2 ≤ 0.0 then { d0, nd, ndc := 0, ds, ds2 := g.ds2 }
  else { d0, nd := nd + PyNum.floor ((g.d2 - d1) / g.ds2 + 0.75), ndc := nd, ds, ds2 := g.ds2 }

/-- `QC` (`area.py` 75). -/
def areaQc : List Int := [50, 90, 10]

/-- `area.py` 50-65, 136-168: constants and system parameters. Line 164 takes
`math.sqrt(zq.real - 1)`, a real number. -/
def areaSetup (p : PropSt α) : Py (PropSt α) := do
  let p := { p with ens0 := 301.0, eps := 15.0, sgm := 0.001, klimx := 5, mdvarx := 3,
                    gma := 157e-9, kwx := 0, wn := p.fmhz / 47.7 }
  let p := { p with ens := p.ens0 }
  let p := { p with gme := effCurvature p.gma p.ens, lvar := 0 }
  let zq ← groundZq p.eps p.sgm p.wn
  let zgnd : Cx α := ⟨← mathSqrt (zq.re - 1.0), 0.0⟩
  let zgnd ← if p.ipol ≠ 0 then Cx.div zgnd zq else pure zgnd
  pure { p with zgnd }

/-- The loop over confidence levels (`area.py` 199-212). -/
def areaInner (d fs zt zl : α) : List (Int × α) → PropSt α → Py (List (AreaRow α) × PropSt α)
  | [], p => pure ([], p)
  | (qc, zc) :: rest, p => do
    let (a, p) ← avar zt zl zc p
    let row : AreaRow α := { distance_km := d, confidence := qc, loss := fs + a }
    let (rows, p) ← areaInner d fs zt zl rest p
    pure (row :: rows, p)

/-- The loop over distances (`area.py` 184-219), `k` turns left, loop index `jd`. -/
def areaLoop (zt zl : α) (zc : List (Int × α)) (ndc : Int) (ds2 : α) :
    Nat → Int → α → α → PropSt α → Py (List (AreaRow α) × PropSt α)
  | 0, _, _, _, p => pure ([], p)
  | k + 1, jd, d, dt, p => do
    let p := { p with lvar := max 1 p.lvar }
    let p ← lrprop (d * 1000.0) p
    let fs ← freeSpace p.wn p.dist
    let (r1, p) ← areaInner d fs zt zl zc p
    let dt := if jd + 1 = ndc then ds2 else dt
    let (r2, p) ← areaLoop zt zl zc ndc ds2 k (jd + 1) (d + dt) dt p
    pure (r1 ++ r2, p)

/-- `scripts/area.py` 33-221, for a distance grid `g` (shipped: `gridDefault`), siting criteria `kst`
(shipped: `[2, 2]`, `area.py` 93) and requested percentages of time, location and confidence (shipped:
50, 50, `areaQc`, `area.py` 69-75). -/
def itmlogicAreaAt (qt ql : Int) (qc : List Int) (g : Grid α) (kst : Pair Int) (p : PropSt α) :
    Py (List (AreaRow α) × PropSt α) := do
  let zt ← qerfi [percent qt]
  let zl ← qerfi [percent ql]
  let zc ← qerfi (qc.map percent)
  let zt ← pyGet zt 0
  let zl ← pyGet zl 0
  let plan := areaPlan g
  let p ← areaSetup p
  let p ← qlra kst p
  let dt ← match plan.ds with
    | some ds => pure ds
    | none => .error (.unboundLocal "DS")
  areaLoop zt zl (qc.zip zc) plan.ndc plan.ds2 plan.nd.toNat 0 plan.d0 dt p

/-- `scripts/area.py` 33-221 with the shipped percentages. -/
def itmlogicArea (g : Grid α) (kst : Pair Int) (p : PropSt α) : Py (List (AreaRow α) × PropSt α) :=
  itmlogicAreaAt 50 50 areaQc g kst p

/-! ### scripts/pimter.py -/

/-- A result tuple of `run_itmlogic`: `(fmhz, hg, qr, loss)`. -/
structure PimterRow (α : Type) where
  fmhz : α
  hg : α
  reliability : Int
  loss : α
deriving Repr

/-- `pimter.py` 45-130: constants, profile and system parameters for the only frequency, 2.488 GHz.
`terrain` is the module-level global `terrain_height_no_tree`, which is what line 106 reads; the
parameter `surface_profile_m` is not used by the function. -/
def pimterSetup (p : PropSt α) (terrain distance : List α) : Py (PropSt α) := do
  let p := { p with ipol := 1, eps := 15.0, sgm := 0.005, ens0 := 314.0, klim := some 5, gma := 157e-9 }
  let p := { p with ens := p.ens0 }
  let p := { p with gme := effCurvature p.gma p.ens }
  let d1 ← pyGet distance 1
  let d0 ← pyGet distance 0
  let dn ← pyGet distance (-1)
  let p := { p with d := dn / 1000.0, pfl := { np := distance.length - 1, xi := d1 - d0, z := terrain },
                    fmhz := 2.488 * 1000.0 }
  let p := { p with wn := p.fmhz / 47.7 }
  let zq ← groundZq p.eps p.sgm p.wn
  let zgnd := Cx.sqrt (Cx.sub zq ⟨1.0, 0.0⟩)
  let zgnd ← if p.ipol ≠ 0 then Cx.div zgnd zq else pure zgnd
  pure { p with zgnd, hg := ⟨2.56, 0.0⟩ }

/-- `pimter.py` 132-169: the loop over transmitter heights, with the single reliability and
confidence level. -/
def pimterLoop (qr : Int) (zr zc : α) : List α → PropSt α → Py (List (PimterRow α))
  | [], _ => pure []
  | h :: hs, p => do
    let p := { p with hg := ⟨p.hg.x0, h⟩, lvar := 5, kwx := 0, klimx := 0, mdvarx := 11 }
    let p ← qlrpfl p
    let fs ← freeSpace p.wn p.dist
    let (a, p) ← avar zr 0.0 zc p
    let rest ← pimterLoop qr zr zc hs p
    pure ({ fmhz := p.fmhz, hg := h, reliability := qr, loss := fs + a } :: rest)

/-- `scripts/pimter.py` 28-171 with the global `terrain_height_no_tree` explicit, for one requested
reliability `qr` and one confidence `qc`. Lines 89-90 pass the percentage itself (not divided by 100) to
`qerfi`. `p` is the fresh dictionary `prop = {}`. -/
def runItmlogicPimterAt (qr qc : Int) (terrain : List α) (_surface_profile_m distance : List α) (p : PropSt α) :
    Py (List (PimterRow α)) := do
  let zr ← qerfi [PyNum.ofInt qr]
  let zc ← qerfi [PyNum.ofInt qc]
  let p ← pimterSetup p terrain distance
  let zr ← pyGet zr 0
  let zc ← pyGet zc 0
  pimterLoop qr zr zc ((List.range 121).map fun (i : Nat) => PyNum.ofInt (10 + (i : Int))) p

/-- `scripts/pimter.py` 28-171 with the shipped levels `qc = [50]` (line 79) and `qr = [50]` (line 82). -/
def runItmlogicPimter (terrain surface_profile_m distance : List α) (p : PropSt α) : Py (List (PimterRow α)) :=
  runItmlogicPimterAt 50 50 terrain surface_profile_m distance p

end Itm
