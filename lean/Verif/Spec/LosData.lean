import Verif.Spec.Leaf
import Verif.Spec.Rounding
import Verif.Spec.Binary64
import Verif.Model.State

/-! What the line-of-sight attenuation at one distance depends on. -/

namespace Itm.Spec
open Itm

/-- Sine and cosine of small angles are right to four units in the last place of 1. -/
structure Rounding.Trig {α : Type} [PyNum α] (R : Rounding α) : Prop where
  sin : ∀ a, R.fin a → |R.val a| ≤ 4 → R.fin (PyNum.sin a) ∧ |R.val (PyNum.sin a) - Real.sin (R.val a)| ≤ roundEps
  cos : ∀ a, R.fin a → |R.val a| ≤ 4 → R.fin (PyNum.cos a) ∧ |R.val (PyNum.cos a) - Real.cos (R.val a)| ≤ roundEps

/-- The same for a library of functions on doubles. -/
structure Libm.Trig (M : Libm) : Prop where
  sin : ∀ a : Double, a.Finite → |a.val| ≤ 4 → (M.sin a).Finite ∧ |(M.sin a).val - Real.sin a.val| ≤ roundEps
  cos : ∀ a : Double, a.Finite → |a.val| ≤ 4 → (M.cos a).Finite ∧ |(M.cos a).val - Real.cos a.val| ≤ roundEps

/-- The numbers read by `alos`. -/
structure LosData (β : Type) where
  he0 : β
  he1 : β
  wn : β
  dh : β
  zre : β
  zim : β
  aed : β
  emd : β
  wis : β

namespace LosData

/-- The state holds the numbers. -/
def In {β : Type} (v : LosData β) (p : PropSt β) : Prop :=
  p.he.x0 = v.he0 ∧ p.he.x1 = v.he1 ∧ p.wn = v.wn ∧ p.dh = v.dh ∧ p.zgnd.re = v.zre ∧ p.zgnd.im = v.zim ∧
  ∃ l, p.line = some l ∧ l.aed = v.aed ∧ l.emd = v.emd ∧ l.wis = v.wis

def All {β : Type} (P : β → Prop) (v : LosData β) : Prop :=
  P v.he0 ∧ P v.he1 ∧ P v.wn ∧ P v.dh ∧ P v.zre ∧ P v.zim ∧ P v.aed ∧ P v.emd ∧ P v.wis

def map {β γ : Type} (f : β → γ) (v : LosData β) : LosData γ :=
  ⟨f v.he0, f v.he1, f v.wn, f v.dh, f v.zre, f v.zim, f v.aed, f v.emd, f v.wis⟩

variable (v : LosData ℝ)

/-- Ground impedance. -/
def z : ℂ := ⟨v.zre, v.zim⟩
/-- Sine of the grazing angle. -/
noncomputable def graze (d : ℝ) : ℝ := grazing v.he0 v.he1 d
/-- Reflection coefficient of smooth ground. -/
noncomputable def smooth (d : ℝ) : ℂ := (v.graze d - v.z) / (v.graze d + v.z)
/-- Reflection coefficient of rough ground. -/
noncomputable def rough (d : ℝ) : ℂ := reflection v.wn (terrainSigma (irregularity v.dh d)) (v.graze d) v.z
/-- Sum of the direct and the reflected wave. -/
noncomputable def field (d : ℝ) : ℂ := Complex.exp (-(rayPhase v.wn v.he0 v.he1 d : ℂ) * Complex.I) + effReflection (v.graze d) (v.rough d)

/-- Line-of-sight attenuation. -/
noncomputable def att (d : ℝ) : ℝ := v.wis * (-4.343 * Real.log (‖v.field d‖ ^ 2)) + (1 - v.wis) * (v.aed + v.emd * d)

/-- Links of ordinary size. Lengths are in metres. -/
structure Ordinary (d : ℝ) : Prop where
  dist : 1 ≤ d ∧ d ≤ 1e7
  height0 : 0.01 ≤ v.he0 ∧ v.he0 ≤ 1e5
  height1 : 0.01 ≤ v.he1 ∧ v.he1 ≤ 1e5
  wave : 0.01 ≤ v.wn ∧ v.wn ≤ 1e4
  relief : 1e-3 ≤ v.dh ∧ v.dh ≤ 1e4
  ground : 1e-3 ≤ v.zre ∧ v.zre ≤ 1e3 ∧ |v.zim| ≤ 1e3
  line : |v.aed| ≤ 1e4 ∧ |v.emd| ≤ 1e-2
  weight : 0 ≤ v.wis ∧ v.wis ≤ 1

/-- Away from the angle of no reflection, from the jump of the effective reflection coefficient where the squared modulus is 1/4, and from extinction of the field. -/
structure Clear (d : ℝ) : Prop where
  reflects : 1e-3 ≤ ‖v.smooth d‖
  jump : v.graze d < 1 / 4 → 1e-8 ≤ |‖v.rough d‖ ^ 2 - 1 / 4|
  sum : 1e-3 ≤ ‖v.field d‖

end LosData
end Itm.Spec
