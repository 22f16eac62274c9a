import Verif.Spec.Unbarred

/-! Which links the reference attenuation is defined for, and where its formulas divide by zero. -/

namespace Itm.Spec
open Itm

/-- The hard limits of one terminal: antenna height; horizon angle and horizon distance as documented. -/
structure TerminalUsable (hg he dl the gme : ℝ) : Prop where
  hg : 0.5 ≤ hg ∧ hg ≤ 3000
  the : |the| ≤ 0.2
  dlmin : 0.1 * smoothHorizon he gme ≤ dl
  dlmax : dl ≤ 3 * smoothHorizon he gme

/-- All parameters within the hard limits (20 MHz … 20 GHz, antennas of 0.5 … 3000 m), effective heights up to 20 km, ground that is
lossy or at least as dense as `|z| = 1`, and not closer to a perfect mirror than sea water at 40 MHz (below 40 MHz: than 0.025). -/
structure WithinLimits (p : PropSt ℝ) : Prop where
  wn : 0.419 ≤ p.wn ∧ p.wn ≤ 420
  ens : 250 ≤ p.ens ∧ p.ens ≤ 400
  gme : 75e-9 ≤ p.gme ∧ p.gme ≤ 250e-9
  zgnd : |p.zgnd.im| ≤ p.zgnd.re
  t0 : TerminalUsable p.hg.x0 p.he.x0 p.dl.x0 p.the.x0 p.gme
  t1 : TerminalUsable p.hg.x1 p.he.x1 p.dl.x1 p.the.x1 p.gme
  he0 : 0 < p.he.x0 ∧ p.he.x0 ≤ 20000
  he1 : 0 < p.he.x1 ∧ p.he.x1 ≤ 20000
  dh : 0 ≤ p.dh
  lossy : p.zgnd.im ≠ 0 ∨ 1 ≤ p.zgnd.re
  mirror : 0.025 ≤ √(p.zgnd.re ^ 2 + p.zgnd.im ^ 2) ∨ (0.02 ≤ √(p.zgnd.re ^ 2 + p.zgnd.im ^ 2) ∧ 0.838 ≤ p.wn)

namespace Link
variable (L : Link)

/-- The line-of-sight fit divides by zero: a flat diffraction line that is negative, or an inner distance of the fit on the horizon. -/
def FitClash : Prop :=
  let D := fitDistances L.wn L.he₀ L.he₁ L.dla (L.diffLine 0) L.md
  (L.diffLine 0 < 0 ∧ L.md = 0) ∨ D.2 = L.dlsa ∨ (D.1 < D.2 ∧ D.1 = L.dlsa)

/-- The diffraction and the scatter line are parallel (on links barred from scatter: the line the code draws nevertheless). -/
def Parallel : Prop := L.a5' < 1000 ∧ L.md = L.ms'

open Classical in
/-- None of the coincidences matters at the distance. -/
def NoClash (d : ℝ) : Prop := if d < L.dlsa then ¬ L.FitClash else ¬ L.Parallel

/-- Horizons and antennas of the link are within the limits, effective heights up to 20 km. -/
structure Usable : Prop where
  t0 : TerminalUsable L.hg₀ L.he₀ L.dl₀ L.the₀ L.gme
  t1 : TerminalUsable L.hg₁ L.he₁ L.dl₁ L.the₁ L.gme
  he0 : L.he₀ ≤ 20000
  he1 : L.he₁ ≤ 20000

end Link

/-- The geometry of a prepared path is within the limits: horizon distances and angles of both terminals, and effective
heights up to 20 km. -/
structure PathOk (p : PropSt ℝ) : Prop where
  t0 : TerminalUsable p.hg.x0 p.he.x0 p.dl.x0 p.the.x0 p.gme
  t1 : TerminalUsable p.hg.x1 p.he.x1 p.dl.x1 p.the.x1 p.gme
  he0 : p.he.x0 ≤ 20000
  he1 : p.he.x1 ≤ 20000

end Itm.Spec
