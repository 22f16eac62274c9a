import Mathlib.Analysis.SpecialFunctions.Log.Base
import Mathlib.Analysis.SpecialFunctions.Trigonometric.Basic

/-! The physics the constants of the code stand for; nothing here mentions the model. -/

namespace Itm.Spec

/-- Speed of light in vacuum, m/s (exact, by the definition of the metre). -/
def lightSpeed : ℝ := 299792458

/-- Free-space loss between isotropic antennas (Friis), in dB, at `f` MHz over `d` metres: `20·log₁₀(4πd/λ)`. -/
noncomputable def friis (f d : ℝ) : ℝ := 20 * Real.logb 10 (4 * Real.pi * d / (lightSpeed / (f * 1000000)))

/-- Mean radius of the earth in metres (IUGG). -/
def earthRadius : ℝ := 6371000

end Itm.Spec
