import Verif.Spec.Line
import Verif.Spec.Order
import Mathlib.Algebra.Order.Floor.Ring
import Mathlib.Analysis.SpecialFunctions.Exp

/-! Terrain irregularity: interdecile range of the detrended terrain. -/

namespace Itm.Spec

/-- Piecewise linear terrain through the heights `z 0, z 1, …` at positions `0, 1, …`. -/
noncomputable def interp (z : ℕ → ℝ) (t : ℝ) : ℝ := z ⌊t⌋₊ + (z (⌊t⌋₊ + 1) - z ⌊t⌋₊) * Int.fract t

/-- Number of values discarded at each end: about one in ten, between 4 and 25. -/
noncomputable def trimmed (xa xb : ℝ) : ℕ := min (max 4 ⌊(xb - xa + 8) / 10⌋₊) 25

/-- Number of values the terrain is resampled to. -/
noncomputable def resampled (xa xb : ℝ) : ℕ := 10 * trimmed xa xb - 5

/-- The resampled terrain between positions `xa` and `xb`. -/
noncomputable def resample (z : ℕ → ℝ) (xa xb : ℝ) (j : ℕ) : ℝ :=
  interp z (xa + j * ((xb - xa) / ((resampled xa xb : ℝ) - 1)))

/-- Deviations of the resampled terrain from the line `c + s t`. -/
noncomputable def residuals (z : ℕ → ℝ) (xa xb c s : ℝ) : List ℝ :=
  (List.range (resampled xa xb)).map fun j => resample z xa xb j - (c + s * j)

/-- `v` is the interdecile range of the deviations from the least-squares line, referred to long paths by the factor
for the window length `L`. -/
def IsIrregularity (z : ℕ → ℝ) (xa xb L v : ℝ) : Prop :=
  ∃ c s hi lo, BestLine (resample z xa xb) 0 (resampled xa xb - 1) c s ∧
    IsRank (residuals z xa xb c s) (trimmed xa xb - 1) hi ∧
    IsRank (residuals z xa xb c s) (resampled xa xb - trimmed xa xb) lo ∧
    v = (hi - lo) / (1 - 0.8 * Real.exp (-L / 50000))

end Itm.Spec
