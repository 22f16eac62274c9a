import Mathlib.Analysis.SpecialFunctions.Sqrt
import Mathlib.Analysis.SpecialFunctions.Exp

/-! Horizons over irregular terrain, estimated from effective height, earth curvature and terrain irregularity. -/

namespace Itm.Spec

/-- Horizon distance over a smooth earth of curvature `κ`. -/
noncomputable def smoothReach (κ he : ℝ) : ℝ := Real.sqrt (2 * he / κ)

/-- Horizon distance over terrain of irregularity `dh`. -/
noncomputable def roughHorizon (κ dh he : ℝ) : ℝ := smoothReach κ he * Real.exp (-0.07 * Real.sqrt (dh / max he 5))

/-- Horizon elevation angle over terrain of irregularity `dh`. -/
noncomputable def roughAngle (κ dh he : ℝ) : ℝ :=
  (0.65 * dh * (smoothReach κ he / roughHorizon κ dh he - 1) - 2 * he) / smoothReach κ he

theorem smoothReach_pos {κ he : ℝ} (hκ : 0 < κ) (hh : 0 < he) : 0 < smoothReach κ he :=
  Real.sqrt_pos.2 (by positivity)

theorem roughHorizon_pos {κ dh he : ℝ} (hκ : 0 < κ) (hh : 0 < he) : 0 < roughHorizon κ dh he :=
  mul_pos (smoothReach_pos hκ hh) (Real.exp_pos _)

theorem roughHorizon_le {κ dh he : ℝ} : roughHorizon κ dh he ≤ smoothReach κ he := by
  unfold roughHorizon
  refine mul_le_of_le_one_right (Real.sqrt_nonneg _) (Real.exp_le_one_iff.2 ?_)
  have := Real.sqrt_nonneg (dh / max he 5)
  generalize Real.sqrt (dh / max he 5) = r at *
  norm_num; linarith

/-- Raising the height by a factor `f² ≥ 1` raises the horizon distance at least by the factor `f`. -/
theorem roughHorizon_scale {κ dh he f : ℝ} (hd : 0 ≤ dh) (hh : 0 < he) (hf : 1 ≤ f) :
    f * roughHorizon κ dh he ≤ roughHorizon κ dh (he * f ^ 2) := by
  unfold roughHorizon smoothReach
  have e : Real.sqrt (2 * (he * f ^ 2) / κ) = f * Real.sqrt (2 * he / κ) := by
    rw [show 2 * (he * f ^ 2) / κ = f ^ 2 * (2 * he / κ) by ring, Real.sqrt_mul (by positivity), Real.sqrt_sq (by linarith)]
  rw [e, ← mul_assoc]
  refine mul_le_mul_of_nonneg_left (Real.exp_le_exp.2 ?_) (mul_nonneg (by linarith) (Real.sqrt_nonneg _))
  have hm : max he 5 ≤ max (he * f ^ 2) 5 := max_le_max (by nlinarith [sq_nonneg f, mul_nonneg (by linarith : (0:ℝ) ≤ f - 1) (by linarith : (0:ℝ) ≤ f + 1)]) le_rfl
  have : Real.sqrt (dh / max (he * f ^ 2) 5) ≤ Real.sqrt (dh / max he 5) :=
    Real.sqrt_le_sqrt (div_le_div_of_nonneg_left hd (by positivity) hm)
  generalize Real.sqrt (dh / max he 5) = r at *
  generalize Real.sqrt (dh / max (he * f ^ 2) 5) = r' at *
  norm_num
  linarith

end Itm.Spec
