import Verif.PyReal
import Verif.Model.State

/-! Inputs that stand for a physical link at all. -/

namespace Itm.Spec
open Itm

/-- Positive frequency, effective heights and curvature, horizons that are not at the antenna, irregularity that is not negative,
ground that is not a perfect mirror. -/
structure Physical (p : PropSt ℝ) : Prop where
  wn : 0 < p.wn
  gme : 0 < p.gme
  he0 : 0 < p.he.x0
  he1 : 0 < p.he.x1
  dl0 : p.dl.x0 ≠ 0
  dl1 : p.dl.x1 ≠ 0
  dh : 0 ≤ p.dh
  zgnd : p.zgnd.re ≠ 0 ∨ p.zgnd.im ≠ 0

end Itm.Spec
