import Verif.PyReal
import Mathlib.Analysis.SpecialFunctions.Complex.Circle

/-! The attenuation formulas of the ITM algorithm, as functions of real numbers. -/

namespace Itm.Spec

/-- Fresnel-Kirchhoff knife-edge attenuation (approximation used by the algorithm), `v²` positive. -/
noncomputable def knifeEdge (v2 : ℝ) : ℝ :=
  if v2 < 5.76 then 6.02 + 9.11 * Real.sqrt v2 - 1.27 * v2 else 12.953 + 4.343 * Real.log v2

/-- The argument is replaced by a small positive number when it is not positive. -/
noncomputable def clampV2 (v2 : ℝ) : ℝ := if v2 ≤ 0 then 1e-5 else v2

/-- Double knife edge: path excess `ds = d - dla`, total angle `th`, horizon distances `a`, `b`. -/
noncomputable def doubleKnife (k ds th a b : ℝ) : ℝ :=
  knifeEdge (clampV2 (0.0795775 * k * ds * th ^ 2 * a / (ds + a))) +
  knifeEdge (clampV2 (0.0795775 * k * ds * th ^ 2 * b / (ds + b)))

/-- Argument of the rounded-earth formula. -/
noncomputable def roundedArg (k ds th z xht : ℝ) : ℝ :=
  (1.607 - z / (ds / th * k) ^ (1 / 3 : ℝ)) * 151 * (ds / th * k) ^ (1 / 3 : ℝ) * th + xht

/-- Rounded-earth attenuation. -/
noncomputable def roundedEarth (k ds th z xht aht : ℝ) : ℝ :=
  0.05751 * roundedArg k ds th z xht - 4.343 * Real.log (roundedArg k ds th z xht) - aht

/-- Terrain irregularity as seen over a distance. -/
noncomputable def irregularity (dh d : ℝ) : ℝ := (1 - 0.8 * Real.exp (-d / 50000)) * dh

/-- Weight of the rounded-earth attenuation. -/
noncomputable def diffWeight (k dh wd1 xd1 d : ℝ) : ℝ :=
  25.1 / (25.1 + Real.sqrt ((wd1 + xd1 / d) * min (irregularity dh d * k) 6283.2))

/-- Standard deviation of the terrain heights over a distance, from the irregularity `q` there. -/
noncomputable def terrainSigma (q : ℝ) : ℝ := 0.78 * q * Real.exp (-((q / 16) ^ (1 / 4 : ℝ)))

/-- Clutter term, from the structural heights. -/
noncomputable def clutter (k dh h0 h1 ds : ℝ) : ℝ :=
  min 15 (2.171 * Real.log (1 + 4.77e-4 * h0 * h1 * k * terrainSigma (irregularity dh ds)))

/-- Argument of the height gain of a terminal: the rounded-earth argument over its own horizon distance, the angle being
the one subtended there by twice the effective height. -/
noncomputable def terminalArg (k z dl he : ℝ) : ℝ := roundedArg k dl (2 * he / dl) z 0
/-- Impedance parameter of a terminal. -/
noncomputable def terminalK (k z dl he : ℝ) : ℝ := z / (dl ^ 2 / (2 * he) * k) ^ (1 / 3 : ℝ)

/-- Height gain, far formula. -/
noncomputable def farGain (x : ℝ) : ℝ := 0.05751 * x - 4.343 * Real.log x
/-- Height gain, near formula. -/
noncomputable def nearGain (x : ℝ) : ℝ := 17.372 * Real.log x - 117

/-- Coefficients of the frequency gain for scatter efficiency 1 to 5: `4.343 ln(1 + b r⁻² + a r⁻⁴)`. -/
def gainRows : List (ℚ × ℚ) := [(25, 24), (80, 45), (177, 68), (395, 80), (705, 105)]

/-- One row of the table. -/
noncomputable def gainRow (c : ℚ × ℚ) (r : ℝ) : ℝ := 4.343 * Real.log (1 + c.2 / r ^ 2 + c.1 / r ^ 4)

/-- Sine of the grazing angle of the ray reflected between effective heights `h0`, `h1` at distance `d`. -/
noncomputable def grazing (h0 h1 d : ℝ) : ℝ := (h0 + h1) / Real.sqrt (d ^ 2 + (h0 + h1) ^ 2)

/-- Complex reflection coefficient of ground of impedance `z`, reduced by the terrain roughness `σ`. -/
noncomputable def reflection (k σ s : ℝ) (z : ℂ) : ℂ := ((s - z) / (s + z)) * (Real.exp (-min 10 (k * σ * s)) : ℝ)

/-- Effective reflection coefficient: its squared modulus is raised to `s` when it is below 1/4 or below `s`. -/
noncomputable def effReflection (s : ℝ) (r : ℂ) : ℂ :=
  if ‖r‖ ^ 2 < 1 / 4 ∨ ‖r‖ ^ 2 < s then r * (Real.sqrt (s / ‖r‖ ^ 2) : ℝ) else r

/-- Phase difference of the two rays, bent so as to stay below 3.14. -/
noncomputable def rayPhase (k h0 h1 d : ℝ) : ℝ :=
  if 1.57 < 2 * k * h0 * h1 / d then 3.14 - 2.4649 / (2 * k * h0 * h1 / d) else 2 * k * h0 * h1 / d

/-- Two-ray attenuation. -/
noncomputable def twoRay (k dh h0 h1 d : ℝ) (z : ℂ) : ℝ :=
  -4.343 * Real.log (‖Complex.exp (-(rayPhase k h0 h1 d : ℂ) * Complex.I) +
    effReflection (grazing h0 h1 d) (reflection k (terrainSigma (irregularity dh d)) (grazing h0 h1 d) z)‖ ^ 2)

/-- `v` is a convex combination of `a` (weight `w`) and `b`. -/
def Blend (v w a b : ℝ) : Prop := 0 ≤ w ∧ w ≤ 1 ∧ v = w * a + (1 - w) * b

theorem Blend.between {v w a b : ℝ} (h : Blend v w a b) : min a b ≤ v ∧ v ≤ max a b := by
  obtain ⟨h0, h1, e⟩ := h
  have e1 := min_le_left a b; have e2 := min_le_right a b; have e3 := le_max_left a b; have e4 := le_max_right a b
  rw [e]
  constructor <;> nlinarith

end Itm.Spec
