import Verif.Lemmas.CxSqrt
import Verif.Props.C29
import Verif.Lemmas.PrepReal
import Verif.Model.Lrprop

/-! C41: the general preparation `qlrps`. -/

namespace Itm
open Itm.Props

/-- The modelled square root is a square root, in the right half plane. -/
theorem cxsqrt_spec (z : Cx ℝ) : (Cx.sqrt z).toC ^ 2 = z.toC ∧ 0 ≤ (Cx.sqrt z).re := by
  have hm : z.abs ^ 2 = z.re ^ 2 + z.im ^ 2 := by
    rw [cxabs_real, Real.sq_sqrt (by nlinarith [mul_self_nonneg z.re, mul_self_nonneg z.im])]
    ring
  have hm0 : 0 ≤ z.abs := by rw [cxabs_real]; exact Real.sqrt_nonneg _
  have h1 : |z.re| ≤ z.abs := abs_le_of_sq_le_sq (by nlinarith [sq_nonneg z.im]) hm0
  obtain ⟨ha, hb⟩ := abs_le.1 h1
  have e2 : (2.0 : ℝ) = 2 := by norm_num
  have u2 := Real.sq_sqrt (show 0 ≤ (z.abs + z.re) / 2 by linarith)
  have v2 := Real.sq_sqrt (show 0 ≤ (z.abs - z.re) / 2 by linarith)
  have uv : Real.sqrt ((z.abs + z.re) / 2) * Real.sqrt ((z.abs - z.re) / 2) = |z.im| / 2 := by
    rw [← Real.sqrt_mul (by linarith), show (z.abs + z.re) / 2 * ((z.abs - z.re) / 2) = (|z.im| / 2) ^ 2 by
      rw [div_pow, sq_abs]; linarith, Real.sqrt_sq (by positivity)]
  have hu := Real.sqrt_nonneg ((z.abs + z.re) / 2)
  rw [cxsqrt_real]
  try dsimp only
  rw [e2, zero_lit]
  simp only [rsqrt]
  generalize Real.sqrt ((z.abs + z.re) / 2) = u at *
  generalize Real.sqrt ((z.abs - z.re) / 2) = v at *
  refine ⟨?_, hu⟩
  rw [sq]
  apply Complex.ext
  · simp only [Complex.mul_re, Cx.toC]
    split_ifs <;> nlinarith
  · simp only [Complex.mul_im, Cx.toC]
    split_ifs with h
    · rw [abs_of_neg h] at uv; linarith
    · rw [abs_of_nonneg (not_lt.1 h)] at uv; linarith

end Itm

namespace Itm.Props
open Itm Itm.Spec

/-- **C41** For positive frequency and permittivity `qlrps` does not raise; wave number, refractivity and curvature are as defined, and the surface
transfer impedance satisfies its defining equation with a real part that is not negative. -/
theorem C41_values {fmhz zsys en0 eps sgm : ℝ} {ipol : ℤ} (hf : 0 < fmhz) (he : 0 < eps) :
    ∃ r, qlrps fmhz zsys en0 ipol eps sgm = .ok r ∧ r.wn = fmhz / 47.7 ∧ r.ens = en0 * Real.exp (-zsys / 9460) ∧
      r.gme = 157e-9 * (1 - 0.04665 * Real.exp (r.ens / 179.3)) ∧
      (ipol = 0 → r.zgnd.toC ^ 2 = (⟨eps, 376.62 * sgm / r.wn⟩ : ℂ) - 1 ∧ 0 ≤ r.zgnd.re) ∧
      (ipol ≠ 0 → (r.zgnd.toC * ⟨eps, 376.62 * sgm / r.wn⟩) ^ 2 = (⟨eps, 376.62 * sgm / r.wn⟩ : ℂ) - 1 ∧
        0 ≤ (r.zgnd.toC * ⟨eps, 376.62 * sgm / r.wn⟩).re) := by
  have hwn : 0 < fmhz / 47.7 := by positivity
  obtain ⟨wn, ewn⟩ : ∃ wn, wn = fmhz / 47.7 := ⟨_, rfl⟩
  obtain ⟨zq, ezq⟩ : ∃ zq : Cx ℝ, zq = ⟨eps, 376.62 * sgm / wn⟩ := ⟨_, rfl⟩
  have hzq : (zq.sub ⟨1.0, 0.0⟩).toC = zq.toC - 1 := by
    rw [toC_sub, toC_real]; norm_num
  obtain ⟨hs, hs0⟩ := cxsqrt_spec (zq.sub ⟨1.0, 0.0⟩)
  rw [hzq] at hs
  have hn : zq.normSq ≠ 0 := by
    rw [ezq]; unfold Cx.normSq
    have := mul_self_nonneg (376.62 * sgm / wn)
    dsimp only
    have := mul_pos he he
    intro h; linarith
  have hzc : zq.toC ≠ 0 := by
    intro h
    apply hn
    have : zq.normSq = Complex.normSq zq.toC := rfl
    rw [this, h]; simp
  obtain ⟨w, hw⟩ : ∃ w, Cx.div (Cx.sqrt (zq.sub ⟨1.0, 0.0⟩)) zq = .ok w := by
    rw [cxdiv_real]
    rw [pyDiv_ok hn, ok_bind, pyDiv_ok hn, ok_bind]
    exact ⟨_, rfl⟩
  have hwc : w.toC * zq.toC = (Cx.sqrt (zq.sub ⟨1.0, 0.0⟩)).toC := by
    rw [toC_div hw, div_mul_cancel₀ _ hzc]
  have hens : (if ¬ pyEq zsys 0.0 then en0 * PyNum.exp (-zsys / 9460.0) else en0) = en0 * Real.exp (-zsys / 9460) := by
    have e : (9460.0 : ℝ) = 9460 := by norm_num
    rw [e, zero_lit]
    by_cases h : pyEq zsys 0
    · rw [if_neg (not_not.2 h), pyEq_real.1 h]; simp
    · rw [if_pos h]; rfl
  have hgz : groundZq eps sgm wn = .ok zq := by
    unfold groundZq
    rw [ewn, pyDiv_ok hwn.ne', ok_bind, ezq, ewn]; rfl
  have hg : effCurvature (157e-9 : ℝ) (en0 * Real.exp (-zsys / 9460)) =
      157e-9 * (1 - 0.04665 * Real.exp (en0 * Real.exp (-zsys / 9460) / 179.3)) := by
    unfold effCurvature; rw [one_lit]; rfl
  have hzqC : zq.toC = (⟨eps, 376.62 * sgm / wn⟩ : ℂ) := by rw [ezq]; rfl
  unfold qlrps
  dsimp only
  rw [hens, ← ewn, hgz, ok_bind]
  by_cases hp : ipol ≠ 0
  · rw [if_pos hp, hw, ok_bind]
    refine ⟨_, rfl, rfl, rfl, hg, fun h => absurd h hp, fun _ => ?_⟩
    dsimp only
    rw [← hzqC, hwc]
    exact ⟨hs, hs0⟩
  · rw [if_neg hp, pure_ok, ok_bind]
    refine ⟨_, rfl, rfl, rfl, hg, fun _ => ?_, fun h => absurd h hp⟩
    dsimp only
    rw [← hzqC]
    exact ⟨hs, hs0⟩

/-- **C41** The wave number is proportional to the frequency, and refractivity at sea level is taken as given. -/
theorem C41_scaling {fmhz zsys en0 eps sgm t : ℝ} {ipol : ℤ} {r r' : Qlrps ℝ} (hf : 0 < fmhz) (ht : 0 < t) (he : 0 < eps)
    (h : qlrps fmhz zsys en0 ipol eps sgm = .ok r) (h' : qlrps (t * fmhz) 0 en0 ipol eps sgm = .ok r') :
    r'.wn = t * r.wn ∧ r'.ens = en0 ∧ (0 < zsys → 0 < en0 → r.ens < r'.ens) := by
  obtain ⟨q, e, hw, hn, -⟩ := C41_values (zsys := zsys) (en0 := en0) (ipol := ipol) (sgm := sgm) hf he
  obtain ⟨q', e', hw', hn', -⟩ := C41_values (zsys := 0) (en0 := en0) (ipol := ipol) (sgm := sgm) (mul_pos ht hf) he
  rw [h, ok_inj] at e
  rw [h', ok_inj] at e'
  subst e; subst e'
  have hn0 : r'.ens = en0 := by rw [hn']; simp
  refine ⟨by rw [hw, hw']; ring, hn0, fun hz he0 => ?_⟩
  rw [hn0, hn]
  have : Real.exp (-zsys / 9460) < 1 := by
    rw [← Real.exp_zero]
    apply Real.exp_lt_exp.2
    have : 0 < zsys / 9460 := by positivity
    linarith [neg_div 9460 zsys]
  nlinarith

/-- **C41** The effective curvature is positive exactly below `ens = 179.3 ln(1/0.04665)`, and falls as refractivity grows. -/
theorem C41_curvature {fmhz zsys en0 eps sgm : ℝ} {ipol : ℤ} {r : Qlrps ℝ} (hf : 0 < fmhz) (he : 0 < eps)
    (h : qlrps fmhz zsys en0 ipol eps sgm = .ok r) : 0 < r.gme ↔ r.ens < 179.3 * Real.log (1 / 0.04665) := by
  obtain ⟨q, e, -, -, hg, -⟩ := C41_values (zsys := zsys) (en0 := en0) (ipol := ipol) (sgm := sgm) hf he
  rw [h, ok_inj] at e
  subst e
  rw [hg]
  have : 0 < 157e-9 * (1 - 0.04665 * Real.exp (r.ens / 179.3)) ↔ Real.exp (r.ens / 179.3) < 1 / 0.04665 := by
    rw [lt_div_iff₀ (by norm_num)]
    constructor
    · intro hp
      have := (pos_iff_pos_of_mul_pos hp).1 (by norm_num)
      linarith
    · intro hp
      exact mul_pos (by norm_num) (by linarith)
  rw [this, ← Real.lt_log_iff_exp_lt (by norm_num), div_lt_iff₀ (by norm_num), mul_comm]

theorem C41_curvature_anti {fmhz zsys zsys' en0 en0' eps sgm eps' sgm' fmhz' : ℝ} {ipol ipol' : ℤ} {r r' : Qlrps ℝ} (hf : 0 < fmhz) (hf' : 0 < fmhz') (he : 0 < eps)
    (he' : 0 < eps') (h : qlrps fmhz zsys en0 ipol eps sgm = .ok r) (h' : qlrps fmhz' zsys' en0' ipol' eps' sgm' = .ok r')
    (hl : r.ens < r'.ens) : r'.gme < r.gme := by
  obtain ⟨q, e, -, -, hg, -⟩ := C41_values (zsys := zsys) (en0 := en0) (ipol := ipol) (sgm := sgm) hf he
  obtain ⟨q', e', -, -, hg', -⟩ := C41_values (zsys := zsys') (en0 := en0') (ipol := ipol') (sgm := sgm') hf' he'
  rw [h, ok_inj] at e
  rw [h', ok_inj] at e'
  subst e; subst e'
  rw [hg, hg']
  have : Real.exp (r.ens / 179.3) < Real.exp (r'.ens / 179.3) := Real.exp_lt_exp.2 (div_lt_div_of_pos_right hl (by norm_num))
  generalize Real.exp (r.ens / 179.3) = a at *
  generalize Real.exp (r'.ens / 179.3) = b at *
  have : (0 : ℝ) < 157e-9 := by norm_num
  have h2 : 1 - 0.04665 * b < 1 - 0.04665 * a := by norm_num; linarith
  exact mul_lt_mul_of_pos_left h2 this

/-- **C41** For permittivity above 1 and any conductivity the impedance satisfies `Re ≥ |Im|`, for both polarizations, so the
impedance check of `lrprop` (line 74) does not fire. -/
theorem C41_impedance {fmhz zsys en0 eps sgm : ℝ} {ipol : ℤ} {r : Qlrps ℝ} (hf : 0 < fmhz) (he : 1 < eps)
    (h : qlrps fmhz zsys en0 ipol eps sgm = .ok r) : |r.zgnd.im| ≤ r.zgnd.re ∧ 0 < r.zgnd.re := by
  obtain ⟨q, e, -, -, -, h0, h1⟩ := C41_values (zsys := zsys) (en0 := en0) (ipol := ipol) (sgm := sgm) hf (by linarith : 0 < eps)
  rw [h, ok_inj] at e
  subst e
  obtain ⟨y, hy⟩ : ∃ y, y = 376.62 * sgm / r.wn := ⟨_, rfl⟩
  rw [← hy] at h0 h1
  obtain ⟨a, b, hz⟩ : ∃ a b, r.zgnd = ⟨a, b⟩ := ⟨_, _, rfl⟩
  rw [hz]
  dsimp only
  -- it suffices that the square lies in the right half plane
  have fin : 0 ≤ a → 0 ≤ a ^ 2 - b ^ 2 → (a ≠ 0 ∨ b ≠ 0) → |b| ≤ a ∧ 0 < a := by
    intro ha hab hne
    have h1 : |b| ≤ a := abs_le_of_sq_le_sq (by linarith) ha
    refine ⟨h1, lt_of_le_of_ne ha fun h => ?_⟩
    rw [← h] at h1
    have : b = 0 := abs_nonpos_iff.1 h1
    rcases hne with h2 | h2
    · exact h2 h.symm
    · exact h2 this
  by_cases hp : ipol = 0
  · obtain ⟨hs, hr⟩ := h0 hp
    rw [hz] at hs hr
    have hre := congrArg Complex.re hs
    have him := congrArg Complex.im hs
    simp only [Cx.toC, sq, Complex.mul_re, Complex.mul_im, Complex.sub_re, Complex.sub_im, Complex.one_re, Complex.one_im] at hre him
    refine fin hr (by nlinarith) ?_
    by_contra hc
    push Not at hc
    rw [hc.1, hc.2] at hre
    linarith
  · obtain ⟨hs, hr⟩ := h1 hp
    rw [hz] at hs hr
    have hre := congrArg Complex.re hs
    have him := congrArg Complex.im hs
    simp only [Cx.toC, sq, Complex.mul_re, Complex.mul_im, Complex.sub_re, Complex.sub_im, Complex.one_re, Complex.one_im] at hre him hr
    obtain ⟨u, hu⟩ : ∃ u, u = a * eps - b * y := ⟨_, rfl⟩
    obtain ⟨v, hv⟩ : ∃ v, v = a * y + b * eps := ⟨_, rfl⟩
    rw [← hu, ← hv] at hre him
    rw [← hu] at hr
    have hN : 0 < eps ^ 2 + y ^ 2 := by positivity
    have ea : a * (eps ^ 2 + y ^ 2) = u * eps + v * y := by rw [hu, hv]; ring
    have eb : b * (eps ^ 2 + y ^ 2) = v * eps - u * y := by rw [hu, hv]; ring
    have huv : 2 * (u * v) = y := by linarith
    have hvy : 0 ≤ v * y := by
      have : v * y = 2 * u * v ^ 2 := by rw [← huv]; ring
      rw [this]; positivity
    refine fin ?_ ?_ ?_
    · have : 0 ≤ a * (eps ^ 2 + y ^ 2) := by rw [ea]; nlinarith
      exact nonneg_of_mul_nonneg_left this hN
    · have e2 : (a ^ 2 - b ^ 2) * (eps ^ 2 + y ^ 2) ^ 2 = eps ^ 2 * (eps - 1) + y ^ 2 * (eps + 1) := by
        have : (a ^ 2 - b ^ 2) * (eps ^ 2 + y ^ 2) ^ 2 = (a * (eps ^ 2 + y ^ 2)) ^ 2 - (b * (eps ^ 2 + y ^ 2)) ^ 2 := by ring
        rw [this, ea, eb]
        have : (u * eps + v * y) ^ 2 - (v * eps - u * y) ^ 2 = (u * u - v * v) * (eps ^ 2 - y ^ 2) + 2 * (2 * (u * v)) * (eps * y) := by ring
        rw [this, hre, huv]; ring
      have : 0 ≤ (a ^ 2 - b ^ 2) * (eps ^ 2 + y ^ 2) ^ 2 := by
        rw [e2]
        have h1 : 0 ≤ eps ^ 2 * (eps - 1) := mul_nonneg (sq_nonneg _) (by linarith)
        have h2 : 0 ≤ y ^ 2 * (eps + 1) := mul_nonneg (sq_nonneg _) (by linarith)
        linarith
      exact nonneg_of_mul_nonneg_left this (by positivity)
    · by_contra hc
      push Not at hc
      rw [hc.1, hc.2] at hu hv
      rw [hu, hv] at hre
      linarith

/-- Average ground at 40 MHz with vertical polarization. -/
example : ∃ r : Qlrps ℝ, qlrps 40 0 301 1 15 0.005 = .ok r ∧ |r.zgnd.im| ≤ r.zgnd.re ∧ r.ens = 301 := by
  obtain ⟨r, e, -, hn, -⟩ := C41_values (fmhz := 40) (zsys := 0) (en0 := 301) (ipol := 1) (eps := 15) (sgm := 0.005) (by norm_num) (by norm_num)
  exact ⟨r, e, (C41_impedance (by norm_num) (by norm_num) e).1, by rw [hn]; simp⟩

end Itm.Props
