import Mathlib.Data.Real.Basic

/-! Points on the straight line between two sites. -/

namespace Itm.Spec

/-- The point at the fraction `t` of the way from `a` to `b`. -/
noncomputable def between (a b : ℝ × ℝ) (t : ℝ) : ℝ × ℝ := (a.1 + t * (b.1 - a.1), a.2 + t * (b.2 - a.2))

end Itm.Spec
