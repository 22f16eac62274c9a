import Verif.PyReal

/-! The three distances of the line-of-sight fit (ITM algorithm, section 4.2), over the reals. -/

namespace Itm.Spec

/-- The two inner distances `(d0, d1)`; the outer one is the smooth-earth horizon distance `dlsa`. `k` wave number,
`h₀ h₁` effective heights, `dla` sum of horizon distances, `aed + emd·d` the diffraction line. -/
noncomputable def fitDistances (k h₀ h₁ dla aed emd : ℝ) : ℝ × ℝ :=
  let near := 1.908 * k * h₀ * h₁
  if 0 ≤ aed then
    let d0 := min near (dla / 2)
    (d0, d0 + (dla - d0) / 4)
  else (near, max (-aed / emd) (dla / 4))

/-- A curve `e + b·d + c·log d`. -/
noncomputable def fitCurve (e b c d : ℝ) : ℝ := e + b * d + c * Real.log d

end Itm.Spec
