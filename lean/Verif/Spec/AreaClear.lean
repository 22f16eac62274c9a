import Verif.Model.Runners
import Verif.Spec.Clear
import Verif.Spec.EndToEnd
import Verif.Spec.Hastings
import Verif.Spec.Precision

/-! What an area prediction must stay off for its results to depend continuously on its inputs. -/

namespace Itm.Spec
open Itm

variable {ι : Type} {l : Filter ι} {α : ι → Type} [∀ i, PyNum (α i)] {ε : ι → ℝ}

/-- First distance of a grid. -/
noncomputable def gridStart (g : Grid ℝ) : ℝ := if g.d0 ≤ 0 then g.ds1 else g.d0

/-- Number of distances of the first part of a grid (the last may go past the end of the part). -/
noncomputable def gridCount (g : Grid ℝ) : ℤ := ⌊(g.d1 - gridStart g) / g.ds1 + 7 / 4⌋

/-- Last distance of the first part of a grid. -/
noncomputable def gridReach (g : Grid ℝ) : ℝ := gridStart g + (gridCount g - 1) * g.ds1

/-- The number of distances does not change with the last digits of the grid constants. -/
structure GridClear (g : Grid ℝ) : Prop where
  start : g.d0 ≠ 0
  first : ∀ n : ℤ, (g.d1 - gridStart g) / g.ds1 + 7 / 4 ≠ n
  join : g.d2 ≠ gridReach g
  step : g.ds2 ≠ 0
  second : gridReach g < g.d2 → ∀ n : ℤ, (g.d2 - gridReach g) / g.ds2 + 3 / 4 ≠ n

/-- The effective height does not change with the last digits of the height: sited antennas are not of 5 m. -/
def SiteClear (k : ℤ) (h : ℝ) : Prop := 0 < k → h ≠ 5

/-- What the user supplies. -/
structure UserApx (F : Refining l α ε) (P : ∀ i, PropSt (α i)) (p : PropSt ℝ) : Prop where
  fmhz : F.Approx (fun i => (P i).fmhz) p.fmhz
  hg0 : F.Approx (fun i => (P i).hg.x0) p.hg.x0
  hg1 : F.Approx (fun i => (P i).hg.x1) p.hg.x1
  dh : F.Approx (fun i => (P i).dh) p.dh
  ipol : ∀ i, (P i).ipol = p.ipol

/-- No key the program itself computes is there yet. -/
def Untouched (p : PropSt ℝ) : Prop :=
  p.scat = none ∧ p.aref = none ∧ p.clim = none ∧ p.vmode = none ∧ p.fgain = none ∧ p.dexa = none ∧ p.varc = none

/-- Approximation of grid constants. -/
structure GridApx (F : Refining l α ε) (G : ∀ i, Grid (α i)) (g : Grid ℝ) : Prop where
  d0 : F.Approx (fun i => (G i).d0) g.d0
  d1 : F.Approx (fun i => (G i).d1) g.d1
  ds1 : F.Approx (fun i => (G i).ds1) g.ds1
  d2 : F.Approx (fun i => (G i).d2) g.d2
  ds2 : F.Approx (fun i => (G i).ds2) g.ds2

end Itm.Spec
