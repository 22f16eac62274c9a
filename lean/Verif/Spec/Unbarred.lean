import Verif.Spec.Reference

/-! Forward scatter with no link barred from it: the published attenuation, except that scatter is used also where both scatter
parameters are below 0.2. -/

namespace Itm.Spec
namespace Link
variable (L : Link)

open Classical in
/-- Frequency gain at the nearer distance; it is limited by the one at the farther distance only if that distance is usable. -/
noncomputable def gain5' : ℝ := if L.ScatterOk L.d6 then L.gain5 else L.scatterGain L.d5
/-- Scatter attenuation at the nearer distance. -/
noncomputable def a5' : ℝ := L.scatterAtt L.d5 L.gain5'
/-- Slope of the scatter line. -/
noncomputable def ms' : ℝ := (L.a6 - L.a5') / (L.d6 - L.d5)
/-- Where scatter takes over. -/
noncomputable def dx' : ℝ :=
  max (max L.dlsa (L.dla + 0.3 * L.xae * Real.log (47.7 * L.wn))) ((L.a5' - L.ms' * L.d5 - L.diffLine 0) / (L.md - L.ms'))
/-- Attenuation beyond the horizon, scatter included on every link. -/
noncomputable def unbarred (d : ℝ) : ℝ :=
  if L.a5' < 1000 ∧ L.dx' < d then L.diffLine L.dx' + L.ms' * (d - L.dx') else L.diffLine d
/-- The reference attenuation, scatter included on every link. -/
noncomputable def unbarredReference (d : ℝ) : ℝ :=
  max 0 (if 0 < d ∧ d < L.dlsa then L.sight d else L.unbarred d)

variable {L}

/-- On links that are not barred nothing changes. -/
theorem gain5'_eq (h6 : L.ScatterOk L.d6) : L.a5' = L.a5 ∧ L.ms' = L.ms := by
  have e5 : L.gain5' = L.gain5 := if_pos h6
  have ea : L.a5' = L.a5 := by unfold a5' a5; rw [e5]
  exact ⟨ea, by unfold ms' ms; rw [ea]⟩

theorem unbarred_eq (h5 : L.ScatterOk L.d5) (h6 : L.ScatterOk L.d6) (d : ℝ) : L.unbarred d = L.beyond d := by
  obtain ⟨ea, em⟩ := gain5'_eq h6
  have ed : L.dx' = L.dx := by unfold dx' dx; rw [ea, em]
  unfold unbarred beyond
  rw [ea, em, ed]
  simp only [h5, true_and]

/-- On a barred link the published attenuation is the diffraction line. -/
theorem beyond_barred (h5 : ¬ L.ScatterOk L.d5) (d : ℝ) : L.beyond d = L.diffLine d :=
  if_neg fun h => h5 h.1

end Link
end Itm.Spec
