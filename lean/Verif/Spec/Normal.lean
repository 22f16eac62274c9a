import Mathlib.Probability.Distributions.Gaussian.Real

/-! The standard normal distribution, as Mathlib's probability measure. Nothing here mentions the model. -/

namespace Itm.Spec

/-- The probability that a standard normal variable exceeds `z`. -/
noncomputable def normalTail (z : ℝ) : ℝ :=
  (ProbabilityTheory.gaussianReal 0 1).real (Set.Ioi z)

end Itm.Spec
