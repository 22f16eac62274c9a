import Verif.Model.State
import Verif.Spec.Rounding

/-! The dictionary of `avar` in rounding arithmetic and in exact arithmetic. -/

namespace Itm.Spec
open Itm
variable {α : Type} [PyNum α]

/-- The two dictionaries hold the same numbers in the keys `avar` reads: climate code, mode, wave number, distance, terrain irregularity,
effective heights and reference attenuation. Nothing is said of the caches. -/
structure SameValues (R : Rounding α) (p : PropSt α) (p' : PropSt ℝ) : Prop where
  klim : ∃ k, p.klim = some k ∧ p'.klim = some k
  mdvar : ∃ m, p.mdvar = some m ∧ p'.mdvar = some m
  wn : R.fin p.wn ∧ p'.wn = R.val p.wn
  dist : R.fin p.dist ∧ p'.dist = R.val p.dist
  dh : R.fin p.dh ∧ p'.dh = R.val p.dh
  he0 : R.fin p.he.x0 ∧ p'.he.x0 = R.val p.he.x0
  he1 : R.fin p.he.x1 ∧ p'.he.x1 = R.val p.he.x1
  aref : ∃ a, p.aref = some a ∧ R.fin a ∧ p'.aref = some (R.val a)

/-- Numbers of the sizes the model is meant for, and far beyond: 0.5 MHz to 477 GHz, effective heights up to 10 km, 1 km to 10000 km,
terrain irregularity up to 100 km, reference attenuation up to `1e5` dB. -/
structure StatSized (p : PropSt ℝ) : Prop where
  wn : 0.01 ≤ p.wn ∧ p.wn ≤ 1e4
  dist : 1e3 ≤ p.dist ∧ p.dist ≤ 1e7
  dh : 0 ≤ p.dh ∧ p.dh ≤ 1e5
  he0 : 0 ≤ p.he.x0 ∧ p.he.x0 ≤ 1e4
  he1 : 0 ≤ p.he.x1 ∧ p.he.x1 ≤ 1e4
  aref : ∀ a, p.aref = some a → |a| ≤ 1e5

/-- A dictionary of rounding arithmetic whose keys read by `avar` are set, finite and of these sizes. -/
structure StatRange (R : Rounding α) (p : PropSt α) : Prop where
  klim : ∃ k, p.klim = some k
  mdvar : ∃ m, p.mdvar = some m
  wn : R.fin p.wn ∧ 0.01 ≤ R.val p.wn ∧ R.val p.wn ≤ 1e4
  dist : R.fin p.dist ∧ 1e3 ≤ R.val p.dist ∧ R.val p.dist ≤ 1e7
  dh : R.fin p.dh ∧ 0 ≤ R.val p.dh ∧ R.val p.dh ≤ 1e5
  he0 : R.fin p.he.x0 ∧ 0 ≤ R.val p.he.x0 ∧ R.val p.he.x0 ≤ 1e4
  he1 : R.fin p.he.x1 ∧ 0 ≤ R.val p.he.x1 ∧ R.val p.he.x1 ≤ 1e4
  aref : ∃ a, p.aref = some a ∧ R.fin a ∧ |R.val a| ≤ 1e5

end Itm.Spec
