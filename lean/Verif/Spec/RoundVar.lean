import Verif.Model.Stats
import Verif.Spec.Rounding

/-! Coefficients of the variability formula in rounding arithmetic. -/

namespace Itm.Spec
open Itm
variable {α : Type} [PyNum α]

/-- The values of the coefficients. -/
def valC (R : Rounding α) (v : VarC α) : VarC ℝ :=
  { vmd := R.val v.vmd, sgtm := R.val v.sgtm, sgtp := R.val v.sgtp, sgtd := R.val v.sgtd, tgtd := R.val v.tgtd, sgl := R.val v.sgl,
    vs0 := R.val v.vs0 }

/-- Finite coefficients of the sizes that occur: deviations up to 1000 dB, location deviation up to 100 dB, squared situation deviation
up to 100. The correction `tgtd` at large deviates takes back at most half of `sgtd`. -/
structure VarSized (R : Rounding α) (zd : α) (v : VarC α) : Prop where
  finzd : R.fin zd
  zdb : 1 ≤ R.val zd ∧ R.val zd ≤ 100
  fvmd : R.fin v.vmd
  vmd : |R.val v.vmd| ≤ 1000
  fsgtm : R.fin v.sgtm
  sgtm : |R.val v.sgtm| ≤ 1000
  fsgtp : R.fin v.sgtp
  sgtp : |R.val v.sgtp| ≤ 1000
  fsgtd : R.fin v.sgtd
  sgtd : 0 ≤ R.val v.sgtd ∧ R.val v.sgtd ≤ 1000
  ftgtd : R.fin v.tgtd
  tgtd : 2 * |R.val v.tgtd| ≤ R.val zd * R.val v.sgtd
  fsgl : R.fin v.sgl
  sgl : |R.val v.sgl| ≤ 100
  fvs0 : R.fin v.vs0
  vs0 : 0 ≤ R.val v.vs0 ∧ R.val v.vs0 ≤ 100

end Itm.Spec
