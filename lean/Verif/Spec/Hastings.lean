import Mathlib.Analysis.SpecialFunctions.Log.Basic
import Mathlib.Analysis.SpecialFunctions.Pow.Real

/-! Hastings' rational approximation of the normal deviate, before it is rounded. -/

namespace Itm.Spec

/-- Deviate exceeded with (small) probability `t`. -/
noncomputable def hastings (t : ℝ) : ℝ :=
  let r := √(-2 * Real.log t)
  r - (2.515516698 + 0.802853 * r + 0.010328 * r ^ 2) / (1 + 1.432788 * r + 0.189269 * r ^ 2 + 0.001308 * r ^ 3)

/-- The smaller of a probability and its complement, but at least one in a million. -/
noncomputable def tailOf (q : ℝ) : ℝ := max (1 / 2 - |1 / 2 - q|) 1e-6

/-- The level is the median, or its deviate is not halfway between two numbers of four decimals. -/
def Untied (q : ℝ) : Prop := q = 1 / 2 ∨ ∀ k : ℤ, hastings (tailOf q) * 10000 ≠ k + 1 / 2

end Itm.Spec
