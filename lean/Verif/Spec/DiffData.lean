import Verif.Model.State
import Verif.Spec.Rounding

/-! What the diffraction attenuation at one distance depends on. -/

namespace Itm.Spec
open Itm

/-- The numbers read by `adiff` at a positive distance. -/
structure DiffData (β : Type) where
  dl0 : β
  dl1 : β
  gme : β
  wn : β
  dh : β
  tha : β
  dla : β
  qk : β
  wd1 : β
  xd1 : β
  afo : β
  aht : β
  xht : β

namespace DiffData

/-- The state holds the numbers. -/
def In {β : Type} (v : DiffData β) (p : PropSt β) : Prop :=
  p.dl.x0 = v.dl0 ∧ p.dl.x1 = v.dl1 ∧ p.gme = v.gme ∧ p.wn = v.wn ∧ p.dh = v.dh ∧
  (∃ h, p.hor = some h ∧ h.tha = v.tha ∧ h.dla = v.dla) ∧
  ∃ c, p.diff = some c ∧ c.qk = v.qk ∧ c.wd1 = v.wd1 ∧ c.xd1 = v.xd1 ∧ c.afo = v.afo ∧ c.aht = v.aht ∧ c.xht = v.xht

def All {β : Type} (P : β → Prop) (v : DiffData β) : Prop :=
  P v.dl0 ∧ P v.dl1 ∧ P v.gme ∧ P v.wn ∧ P v.dh ∧ P v.tha ∧ P v.dla ∧ P v.qk ∧ P v.wd1 ∧ P v.xd1 ∧ P v.afo ∧ P v.aht ∧ P v.xht

def map {β γ : Type} (f : β → γ) (v : DiffData β) : DiffData γ :=
  ⟨f v.dl0, f v.dl1, f v.gme, f v.wn, f v.dh, f v.tha, f v.dla, f v.qk, f v.wd1, f v.xd1, f v.afo, f v.aht, f v.xht⟩

/-- The angular distance. -/
def angle (v : DiffData ℝ) (d : ℝ) : ℝ := v.tha + d * v.gme

/-- The distance between the horizons. -/
def gap (v : DiffData ℝ) (d : ℝ) : ℝ := d - v.dla

/-- The Fresnel parameter of the obstacle at the horizon distance `dl`. -/
noncomputable def fresnel (v : DiffData ℝ) (d dl : ℝ) : ℝ := 0.0795775 * v.wn * v.gap d * v.angle d ^ 2 * dl / (v.gap d + dl)

/-- Links of ordinary size beyond the horizons. Lengths are in metres. -/
structure Ordinary (v : DiffData ℝ) (d : ℝ) : Prop where
  dist : 1 ≤ d ∧ d ≤ 1e7
  horizons : 0 ≤ v.dla ∧ 1 ≤ v.gap d
  horizon0 : 1 ≤ v.dl0 ∧ v.dl0 ≤ 1e7
  horizon1 : 1 ≤ v.dl1 ∧ v.dl1 ≤ 1e7
  curvature : 0 ≤ v.gme ∧ v.gme ≤ 2e-7
  elevation : |v.tha| ≤ 2
  bend : 1e-4 ≤ v.angle d ∧ v.angle d ≤ 1
  wave : 0.01 ≤ v.wn ∧ v.wn ≤ 1e4
  waves : v.angle d ≤ v.gap d * v.wn ∧ v.gap d * v.wn * v.angle d ^ 2 ≤ 1e9
  ground : 1e-6 ≤ v.qk ∧ v.qk ≤ 1
  terrain : 0 ≤ v.dh ∧ v.dh ≤ 1e5
  blend : 0 ≤ v.wd1 ∧ v.wd1 ≤ 1e6
  offset : 0 ≤ v.xd1 ∧ v.xd1 ≤ 1e9
  height : 0 ≤ v.xht ∧ v.xht ≤ 1e6
  consts : |v.aht| ≤ 1e4 ∧ |v.afo| ≤ 1e4

/-- Neither Fresnel parameter is where the knife-edge formulas change. -/
def Clear (v : DiffData ℝ) (d : ℝ) : Prop := 1e-6 ≤ |v.fresnel d v.dl0 - 5.76| ∧ 1e-6 ≤ |v.fresnel d v.dl1 - 5.76|

end DiffData
end Itm.Spec
