import Verif.Spec.Reference
import Verif.Spec.Rounding

/-! What the scatter attenuation at one distance depends on. -/

namespace Itm.Spec
open Itm

/-- The numbers read by `ascat`. -/
structure ScatData (β : Type) where
  he0 : β
  he1 : β
  the0 : β
  the1 : β
  gme : β
  wn : β
  ens : β
  tha : β
  ad : β
  rr : β
  etq : β
  h0s : β

namespace ScatData

/-- The state holds the numbers. -/
def In {β : Type} (v : ScatData β) (p : PropSt β) : Prop :=
  p.he.x0 = v.he0 ∧ p.he.x1 = v.he1 ∧ p.the.x0 = v.the0 ∧ p.the.x1 = v.the1 ∧ p.gme = v.gme ∧ p.wn = v.wn ∧ p.ens = v.ens ∧
  (∃ h, p.hor = some h ∧ h.tha = v.tha) ∧ ∃ s, p.sprep = some s ∧ s.ad = v.ad ∧ s.rr = v.rr ∧ s.etq = v.etq ∧ s.h0s = v.h0s

def All {β : Type} (P : β → Prop) (v : ScatData β) : Prop :=
  P v.he0 ∧ P v.he1 ∧ P v.the0 ∧ P v.the1 ∧ P v.gme ∧ P v.wn ∧ P v.ens ∧ P v.tha ∧ P v.ad ∧ P v.rr ∧ P v.etq ∧ P v.h0s

def map {β γ : Type} (f : β → γ) (v : ScatData β) : ScatData γ :=
  ⟨f v.he0, f v.he1, f v.the0, f v.the1, f v.gme, f v.wn, f v.ens, f v.tha, f v.ad, f v.rr, f v.etq, f v.h0s⟩

variable (v : ScatData ℝ)

/-- Scatter angle. -/
def angle (d : ℝ) : ℝ := v.the0 + v.the1 + d * v.gme
/-- Scatter parameter of a terminal with the given height. -/
def ray (he d : ℝ) : ℝ := 2 * v.wn * v.angle d * he
/-- Angular distance. -/
def bend (d : ℝ) : ℝ := v.tha + d * v.gme
/-- Height of the crossover. -/
noncomputable def z0 (d : ℝ) : ℝ := (d - v.ad) * (d + v.ad) * v.angle d / (4 * d)
/-- Scatter efficiency. -/
noncomputable def eta (d : ℝ) : ℝ := v.z0 d / 1755.6 * (1 + v.etq * Real.exp (-(min 1.7 (v.z0 d / 8000)) ^ 6))

/-- Frequency gain, before the remembered one is looked at. -/
noncomputable def gain (d : ℝ) : ℝ :=
  let r1 := v.ray v.he0 d
  let r2 := v.ray v.he1 d
  let e := max (v.eta d) 1
  let s := (d - v.ad) / (d + v.ad)
  let h := (scatterTable r1 e + scatterTable r2 e) / 2
  let asym := 0.49 * (1.38 - Real.log e) * Real.log (max 0.1 s) * Real.log (min (max 0.1 (v.rr / s)) 10)
  let h' := max (h + min h asym) 0
  if v.eta d < 1 then
    v.eta d * h' + (1 - v.eta d) * (4.343 * Real.log (((1 + 1.4142 / r1) * (1 + 1.4142 / r2)) ^ 2 * (r1 + r2) / (r1 + r2 + 2.8284)))
  else h'

/-- The gain that counts: a remembered gain above 15 dB, or at least 0 dB when the fresh one is above 15 dB, takes precedence. -/
noncomputable def used (d : ℝ) : ℝ := if 15 < v.h0s ∨ (15 < v.gain d ∧ 0 ≤ v.h0s) then v.h0s else v.gain d

/-- Scatter attenuation. -/
noncomputable def att (d : ℝ) : ℝ :=
  scatterCurve (v.bend d * d) + 4.343 * Real.log (47.7 * v.wn * v.bend d ^ 4) - 0.1 * (v.ens - 301) * Real.exp (-v.bend d * d / 40000) + v.used d

/-- Links of ordinary size. Lengths are in metres. -/
structure Ordinary (d : ℝ) : Prop where
  dist : 1 ≤ d ∧ d ≤ 1e7
  asym : 0 ≤ v.ad ∧ 1 ≤ d - v.ad
  elevation : |v.the0| ≤ 1 ∧ |v.the1| ≤ 1 ∧ |v.tha| ≤ 2
  curvature : 0 ≤ v.gme ∧ v.gme ≤ 2e-7
  angles : 1e-4 ≤ v.angle d ∧ v.angle d ≤ 1
  bends : 1e-4 ≤ v.bend d ∧ v.bend d ≤ 1
  wave : 0.01 ≤ v.wn ∧ v.wn ≤ 1e4
  height0 : 0.01 ≤ v.he0 ∧ v.he0 ≤ 1e5
  height1 : 0.01 ≤ v.he1 ∧ v.he1 ≤ 1e5
  ray0 : 1e-5 ≤ v.ray v.he0 d ∧ v.ray v.he0 d ≤ 1e5
  ray1 : 1e-5 ≤ v.ray v.he1 d ∧ v.ray v.he1 d ≤ 1e5
  ratio : 1e-6 ≤ v.rr ∧ v.rr ≤ 1e6
  efficiency : |v.etq| ≤ 1
  refractivity : |v.ens| ≤ 1000
  memory : |v.h0s| ≤ 1e4

/-- The attenuation is not at a jump: the argument of the attenuation curve is not where its formula changes, and a gain that is compared with 15 dB to decide between two
different values is not 15 dB. -/
structure Clear (d : ℝ) : Prop where
  curve1 : 1e-3 ≤ |v.bend d * d - 10000|
  curve2 : 1e-3 ≤ |v.bend d * d - 70000|
  gain : 0 ≤ v.h0s → v.h0s ≤ 15 → 1e-3 ≤ |v.gain d - 15|

end ScatData
end Itm.Spec
