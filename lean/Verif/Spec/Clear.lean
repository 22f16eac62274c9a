import Verif.Spec.Reference

/-! General position of a link: the exact computation meets none of the thresholds at which the algorithm changes its formula.
At a threshold the slightest rounding may select the other formula. -/

namespace Itm.Spec

/-- The arguments of a height gain are at no threshold. -/
structure GainClear (x k : ℝ) : Prop where
  far : x ≠ 200
  mid : x ≠ 2000
  near : x ≠ 1
  small : k ≠ 1e-5
  cube : x * (-Real.log k) ^ 3 ≠ 5495

namespace Link
variable (L : Link)

/-- Squared knife-edge parameter of a horizon, over a path of length `d`. -/
noncomputable def knifeArg (dl d : ℝ) : ℝ := 0.0795775 * L.wn * (d - L.dla) * (L.tha + d * L.gme) ^ 2 * dl / (d - L.dla + dl)

/-- Diffraction meets no threshold: height gains, and knife edges at the two distances of the line. -/
structure DiffClear : Prop where
  t0 : GainClear (terminalArg L.wn L.zInv L.dl₀ L.he₀) (terminalK L.wn L.zInv L.dl₀ L.he₀)
  t1 : GainClear (terminalArg L.wn L.zInv L.dl₁ L.he₁) (terminalK L.wn L.zInv L.dl₁ L.he₁)
  e30 : L.knifeArg L.dl₀ L.d3 ≠ 5.76
  e31 : L.knifeArg L.dl₁ L.d3 ≠ 5.76
  e40 : L.knifeArg L.dl₀ L.d4 ≠ 5.76
  e41 : L.knifeArg L.dl₁ L.d4 ≠ 5.76

/-- Reflection coefficient of the ground at a distance. -/
noncomputable def ground (d : ℝ) : ℂ :=
  reflection L.wn (terrainSigma (irregularity L.dh d)) (grazing L.he₀ L.he₁ d) L.z

/-- The two rays over a distance meet no threshold: strength of the reflected ray, phase. -/
structure RayClear (d : ℝ) : Prop where
  quarter : ‖L.ground d‖ ^ 2 ≠ 1 / 4
  grazing : ‖L.ground d‖ ^ 2 ≠ grazing L.he₀ L.he₁ d
  phase : 2 * L.wn * L.he₀ * L.he₁ / d ≠ 1.57

/-- Nearest distance of the line-of-sight fit. -/
noncomputable def fit0 : ℝ := (fitDistances L.wn L.he₀ L.he₁ L.dla (L.diffLine 0) L.md).1
/-- Middle distance of the line-of-sight fit. -/
noncomputable def fit1 : ℝ := (fitDistances L.wn L.he₀ L.he₁ L.dla (L.diffLine 0) L.md).2

/-- Logarithmic coefficient of the fit before it is limited from below. -/
noncomputable def fitK2 : ℝ :=
  ((L.dlsa - L.fit0) * (L.twoRayMix L.fit1 - L.twoRayMix L.fit0) - (L.fit1 - L.fit0) * (L.diffLine L.dlsa - L.twoRayMix L.fit0)) /
    ((L.dlsa - L.fit0) * Real.log (L.fit1 / L.fit0) - (L.fit1 - L.fit0) * Real.log (L.dlsa / L.fit0))

/-- Linear coefficient of the fit before the sign repair. -/
noncomputable def fitK1 : ℝ :=
  (L.diffLine L.dlsa - L.twoRayMix L.fit0 - max 0 L.fitK2 * Real.log (L.dlsa / L.fit0)) / (L.dlsa - L.fit0)

/-- The line-of-sight fit meets no threshold. -/
structure SightClear : Prop where
  start : L.diffLine 0 ≠ 0
  order : L.fit0 ≠ L.fit1
  ray1 : L.RayClear L.fit1
  rise : L.diffLine L.dlsa ≠ L.twoRayMix L.fit1
  fit : L.fit0 < L.fit1 → L.RayClear L.fit0 ∧ L.fitK2 ≠ 0 ∧ L.fitK1 ≠ 0 ∧ L.diffLine L.dlsa ≠ L.twoRayMix L.fit0

/-- A distance is usable for scatter, and scatter there meets no threshold. -/
structure HopClear (d : ℝ) : Prop where
  usable : 0.2 < L.scatterR L.he₀ d ∨ 0.2 < L.scatterR L.he₁ d
  eta : L.eta d ≠ 1
  gain : L.scatterGain d ≠ 15
  low : (L.tha + d * L.gme) * d ≠ 10000
  high : (L.tha + d * L.gme) * d ≠ 70000

/-- The scatter line meets no threshold. -/
structure ScatterClear : Prop where
  h5 : L.HopClear L.d5
  h6 : L.HopClear L.d6
  ratio : L.dl₀ ≠ L.dl₁ ∨ L.he₀ = L.he₁
  zero : 15 < L.scatterGain L.d5 → L.scatterGain L.d6 ≠ 0
  a5 : L.a5 ≠ 1000

/-- The computation of the reference attenuation at a (positive) distance meets no threshold. -/
structure Clear (d : ℝ) : Prop where
  diff : L.DiffClear
  horizon : d ≠ L.dlsa
  sight : d < L.dlsa → L.SightClear
  scatter : L.dlsa < d → L.ScatterClear

end Link

end Itm.Spec
