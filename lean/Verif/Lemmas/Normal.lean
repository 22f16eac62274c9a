import Verif.Spec.Normal
import Mathlib.MeasureTheory.Integral.IntervalIntegral.FundThmCalculus
import Mathlib.Analysis.Calculus.Deriv.MeanValue

/-! The upper tail of the standard normal law: complement, derivative, Mills' bound. -/

namespace Itm

open Spec MeasureTheory ProbabilityTheory

/-- The standard normal density. -/
noncomputable def phi (z : ℝ) : ℝ := (√(2 * Real.pi))⁻¹ * Real.exp (-z ^ 2 / 2)

theorem gaussianPDFReal_std (z : ℝ) : gaussianPDFReal 0 1 z = phi z := by
  simp [gaussianPDFReal, phi]

theorem phi_pos (z : ℝ) : 0 < phi z := by
  unfold phi; have := Real.pi_pos; positivity

theorem phi_integrable : Integrable phi := by
  have h := integrable_gaussianPDFReal 0 1
  have e : gaussianPDFReal 0 1 = phi := funext gaussianPDFReal_std
  rwa [e] at h

theorem phi_continuous : Continuous phi := by
  unfold phi; fun_prop

theorem normalTail_eq (z : ℝ) : normalTail z = ∫ x in Set.Ioi z, phi x := by
  unfold normalTail Measure.real
  rw [gaussianReal_apply_eq_integral 0 (by norm_num) (Set.Ioi z), ENNReal.toReal_ofReal]
  · simp only [gaussianPDFReal_std]
  · exact integral_nonneg (fun x => gaussianPDFReal_nonneg 0 1 x)

theorem normalTail_nonneg (z : ℝ) : 0 ≤ normalTail z := measureReal_nonneg

theorem normalTail_anti : Antitone normalTail := fun a b h =>
  measureReal_mono (Set.Ioi_subset_Ioi h) (measure_ne_top _ _)

theorem normalTail_compl (z : ℝ) : normalTail (-z) = 1 - normalTail z := by
  have hs : (gaussianReal 0 1).real (Set.Ioi (-z)) = (gaussianReal 0 1).real (Set.Iio z) := by
    have hm : (gaussianReal 0 1).map (fun x => -x) = gaussianReal 0 1 := by
      rw [gaussianReal_map_neg]; simp
    conv_lhs => rw [← hm]
    unfold Measure.real
    rw [Measure.map_apply measurable_neg measurableSet_Ioi]
    congr 2
    ext x; simp
  have hic : (gaussianReal 0 1).real (Set.Iio z) = (gaussianReal 0 1).real (Set.Iic z) := by
    have : NullSingletonClass (gaussianReal 0 1) := nullSingletonClass_gaussianReal (by norm_num)
    exact measureReal_congr Iio_ae_eq_Iic
  have hc : (gaussianReal 0 1).real (Set.Iic z) = 1 - (gaussianReal 0 1).real (Set.Ioi z) := by
    have h := probReal_compl_eq_one_sub (μ := gaussianReal 0 1) (measurableSet_Ioi (a := z))
    rwa [Set.compl_Ioi] at h
  unfold normalTail
  rw [hs, hic, hc]

theorem normalTail_zero : normalTail 0 = 1 / 2 := by
  have h := normalTail_compl 0
  rw [neg_zero] at h
  linarith

theorem normalTail_sub (a b : ℝ) : normalTail a - normalTail b = ∫ x in a..b, phi x := by
  rw [normalTail_eq, normalTail_eq]
  exact (intervalIntegral.integral_Ioi_sub_Ioi' phi_integrable.integrableOn phi_integrable.integrableOn)

theorem normalTail_hasDeriv (z : ℝ) : HasDerivAt normalTail (-phi z) z := by
  have h1 : HasDerivAt (fun u => ∫ x in (0 : ℝ)..u, phi x) (phi z) z :=
    intervalIntegral.integral_hasDerivAt_right phi_integrable.intervalIntegrable
      (phi_continuous.stronglyMeasurableAtFilter _ _) phi_continuous.continuousAt
  have e : normalTail = fun u => normalTail 0 - ∫ x in (0 : ℝ)..u, phi x := by
    funext u
    have := normalTail_sub 0 u
    linarith
  rw [e]
  exact h1.const_sub _

theorem normalTail_tendsto : Filter.Tendsto normalTail Filter.atTop (nhds 0) := by
  have h : Filter.Tendsto (fun u => ∫ x in (0 : ℝ)..u, phi x) Filter.atTop (nhds (∫ x in Set.Ioi (0 : ℝ), phi x)) :=
    intervalIntegral_tendsto_integral_Ioi 0 phi_integrable.integrableOn Filter.tendsto_id
  have e : normalTail = fun u => normalTail 0 - ∫ x in (0 : ℝ)..u, phi x := by
    funext u
    have := normalTail_sub 0 u
    linarith
  rw [e, normalTail_eq 0]
  have h2 := h.const_sub (∫ x in Set.Ioi (0 : ℝ), phi x)
  simpa using h2

theorem phi_hasDeriv (z : ℝ) : HasDerivAt phi (-z * phi z) z := by
  have h1 : HasDerivAt (fun x : ℝ => -x ^ 2 / 2) (-z) z := by
    have := ((hasDerivAt_pow 2 z).neg).div_const 2
    refine this.congr_deriv ?_
    simp; ring
  have := (h1.exp).const_mul (√(2 * Real.pi))⁻¹
  refine this.congr_deriv ?_
  unfold phi; ring

theorem phi_anti {a b : ℝ} (ha : 0 ≤ a) (h : a ≤ b) : phi b ≤ phi a := by
  unfold phi
  have : Real.exp (-b ^ 2 / 2) ≤ Real.exp (-a ^ 2 / 2) := Real.exp_le_exp.2 (by nlinarith)
  have h2 : 0 ≤ (√(2 * Real.pi))⁻¹ := by positivity
  exact mul_le_mul_of_nonneg_left this h2

theorem phi_tendsto : Filter.Tendsto phi Filter.atTop (nhds 0) := by
  have h : Filter.Tendsto (fun x : ℝ => -x ^ 2 / 2) Filter.atTop Filter.atBot := by
    have h1 : Filter.Tendsto (fun x : ℝ => x ^ 2) Filter.atTop Filter.atTop :=
      Filter.tendsto_pow_atTop (by norm_num)
    have h2 := (Filter.tendsto_neg_atTop_atBot.comp h1).atBot_div_const (by norm_num : (0 : ℝ) < 2)
    exact h2
  have h3 := (Real.tendsto_exp_atBot.comp h).const_mul (√(2 * Real.pi))⁻¹
  rw [mul_zero] at h3
  exact h3

/-- Mills' bound. -/
theorem normalTail_mills {z : ℝ} (hz : 0 < z) : normalTail z ≤ phi z / z := by
  let f : ℝ → ℝ := fun x => phi x / z - normalTail x
  have hd : ∀ x : ℝ, HasDerivAt f (-x * phi x / z - -phi x) x := fun x =>
    ((phi_hasDeriv x).div_const z).sub (normalTail_hasDeriv x)
  have hanti : AntitoneOn f (Set.Ici z) := by
    apply antitoneOn_of_deriv_nonpos (convex_Ici z)
    · exact fun x _ => (hd x).continuousAt.continuousWithinAt
    · exact fun x _ => (hd x).differentiableAt.differentiableWithinAt
    · intro x hx
      rw [(hd x).deriv]
      rw [interior_Ici] at hx
      have hx' : z < x := hx
      have hp := phi_pos x
      have : phi x ≤ x * phi x / z := by
        rw [le_div_iff₀ hz]; nlinarith
      have e : -x * phi x / z = -(x * phi x / z) := by ring
      rw [e]; linarith
  have hlim : Filter.Tendsto f Filter.atTop (nhds 0) := by
    have := (phi_tendsto.div_const z).sub normalTail_tendsto
    simpa using this
  have h0 : 0 ≤ f z := by
    refine le_of_tendsto hlim ?_
    filter_upwards [Filter.eventually_ge_atTop z] with x hx
    exact hanti (Set.self_mem_Ici) hx hx
  simp only [f] at h0
  linarith

end Itm
