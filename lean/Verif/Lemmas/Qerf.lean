import Verif.Lemmas.Basic
import Verif.Model.Misc
import Mathlib.Analysis.Calculus.Deriv.MeanValue
import Mathlib.Analysis.Calculus.Deriv.Pow

/-! Closed form and shape of the Hastings polynomial of `qerf`. -/

namespace Itm

/-- `u * P(u)` with the coefficients of `qerf.py`. -/
noncomputable def hastings (u : ℝ) : ℝ :=
  ((((1.330274429 * u + -1.821255987) * u + 1.781477937) * u + -0.356563782) * u + 0.319381530) * u

theorem hastings_mono : Monotone hastings := by
  have hd : ∀ u : ℝ, HasDerivAt hastings
      (0.319381530 - 2 * 0.356563782 * u + 3 * 1.781477937 * u ^ 2 - 4 * 1.821255987 * u ^ 3 +
        5 * 1.330274429 * u ^ 4) u := by
    intro u
    have h1 := hasDerivAt_id' u
    have h2 := hasDerivAt_pow 2 u
    have h3 := hasDerivAt_pow 3 u
    have h4 := hasDerivAt_pow 4 u
    have h5 := hasDerivAt_pow 5 u
    have h := ((((h1.const_mul (0.319381530 : ℝ)).add (h2.const_mul (-0.356563782 : ℝ))).add
      (h3.const_mul (1.781477937 : ℝ))).add (h4.const_mul (-1.821255987 : ℝ))).add
      (h5.const_mul (1.330274429 : ℝ))
    have hfun : hastings = (fun x => 0.319381530 * x) + (fun x => -0.356563782 * x ^ 2) +
        (fun x => 1.781477937 * x ^ 3) + (fun x => -1.821255987 * x ^ 4) + (fun x => 1.330274429 * x ^ 5) := by
      funext x; simp only [hastings, Pi.add_apply]; ring
    rw [hfun]
    refine h.congr_deriv ?_
    simp only [Nat.cast_ofNat]
    ring
  refine monotone_of_deriv_nonneg (fun u => (hd u).differentiableAt) (fun u => ?_)
  rw [(hd u).deriv]
  nlinarith [sq_nonneg (u ^ 2 * 2 - u * 1.1), sq_nonneg (u - 0.1), sq_nonneg u, sq_nonneg (u^2)]

theorem hastings_zero : hastings 0 = 0 := by simp [hastings]

/-- The upper-tail value for a nonnegative argument. -/
noncomputable def tail (t : ℝ) : ℝ :=
  if 10 ≤ t then 0 else Real.exp (-0.5 * t ^ 2) * 0.398942280 * hastings (4.317008 / (t + 4.317008))

theorem qerf_eq (z : ℝ) : qerf z = .ok (if z < 0 then 1 - tail |z| else tail |z|) := by
  have h10 : (10.0 : ℝ) = 10 := by norm_num
  unfold qerf tail
  simp only [rabs, rexp, npow_real, lit_eq, zero_lit, h10]
  by_cases h : 10 ≤ |z|
  · simp only [h, if_true, pure_bind']
    split_ifs <;> simp [pure_ok]
    norm_num
  · have hne : |z| + (4.317008 : ℝ) ≠ 0 := by positivity
    simp only [h, if_false, pyDiv_ok hne, ok_bind, pure_bind']
    split_ifs <;> simp only [pure_ok, hastings, sq_abs] <;> congr 1 <;> norm_num <;> ring

theorem tail_nonneg {t : ℝ} (ht : 0 ≤ t) : 0 ≤ tail t := by
  unfold tail
  split_ifs with h
  · exact le_refl _
  · have : 0 ≤ hastings (4.317008 / (t + 4.317008)) := by
      rw [← hastings_zero]; exact hastings_mono (by positivity)
    positivity

theorem tail_anti {s t : ℝ} (hs : 0 ≤ s) (h : s ≤ t) : tail t ≤ tail s := by
  by_cases ht : 10 ≤ t
  · have : tail t = 0 := by simp [tail, ht]
    rw [this]; exact tail_nonneg hs
  · have hs' : ¬ 10 ≤ s := by push Not at *; linarith
    unfold tail
    simp only [ht, hs', if_false]
    have h1 : Real.exp (-0.5 * t ^ 2) ≤ Real.exp (-0.5 * s ^ 2) := by
      apply Real.exp_le_exp.2; nlinarith
    have h2 : hastings (4.317008 / (t + 4.317008)) ≤ hastings (4.317008 / (s + 4.317008)) := by
      apply hastings_mono
      apply div_le_div_of_nonneg_left <;> linarith
    have h3 : 0 ≤ hastings (4.317008 / (t + 4.317008)) := by
      rw [← hastings_zero]; exact hastings_mono (by have := le_trans hs h; positivity)
    have h4 := Real.exp_pos (-0.5 * t ^ 2)
    have h5 := Real.exp_pos (-0.5 * s ^ 2)
    apply mul_le_mul _ h2 h3 (by positivity)
    nlinarith

theorem tail_zero : 0.49999999 < tail 0 ∧ tail 0 < 0.5 := by
  simp [tail, hastings]
  norm_num

end Itm
