import Verif.Lemmas.Qerf
import Verif.Lemmas.QerfResid
import Verif.Lemmas.Normal
import Mathlib.Analysis.Real.Pi.Bounds
import Mathlib.Analysis.Complex.ExponentialBounds

/-! Distance between the Hastings tail of `qerf` and the tail of the normal law. -/

namespace Itm

open Spec

/-- `tail` without its cut-off at 10. -/
noncomputable def rawTail (z : ℝ) : ℝ :=
  Real.exp (-0.5 * z ^ 2) * 0.398942280 * hastings (4.317008 / (z + 4.317008))

theorem rsqrt_two_pi : |0.398942280 * √(2 * Real.pi) - 1| ≤ 2e-8 := by
  have h1 := Real.pi_gt_d20
  have h2 := Real.pi_lt_d20
  have hs : √(2 * Real.pi) ^ 2 = 2 * Real.pi := Real.sq_sqrt (by positivity)
  have h0 : 0 ≤ √(2 * Real.pi) := Real.sqrt_nonneg _
  obtain ⟨s, e⟩ : ∃ s, s = √(2 * Real.pi) := ⟨_, rfl⟩
  rw [← e] at hs h0 ⊢
  have l : 2.506628274 ≤ s := by
    by_contra h; push Not at h
    nlinarith
  have u : s ≤ 2.506628275 := by
    by_contra h; push Not at h
    nlinarith
  rw [abs_le]; constructor <;> nlinarith

theorem hastings_hasDeriv (u : ℝ) : HasDerivAt hastings
    (0.319381530 - 2 * 0.356563782 * u + 3 * 1.781477937 * u ^ 2 - 4 * 1.821255987 * u ^ 3 +
      5 * 1.330274429 * u ^ 4) u := by
  have h1 := hasDerivAt_id' u
  have h2 := hasDerivAt_pow 2 u
  have h3 := hasDerivAt_pow 3 u
  have h4 := hasDerivAt_pow 4 u
  have h5 := hasDerivAt_pow 5 u
  have h := ((((h1.const_mul (0.319381530 : ℝ)).add (h2.const_mul (-0.356563782 : ℝ))).add
    (h3.const_mul (1.781477937 : ℝ))).add (h4.const_mul (-1.821255987 : ℝ))).add
    (h5.const_mul (1.330274429 : ℝ))
  have hfun : hastings = (fun x => 0.319381530 * x) + (fun x => -0.356563782 * x ^ 2) +
      (fun x => 1.781477937 * x ^ 3) + (fun x => -1.821255987 * x ^ 4) + (fun x => 1.330274429 * x ^ 5) := by
    funext x; simp only [hastings, Pi.add_apply]; ring
  rw [hfun]
  refine h.congr_deriv ?_
  simp only [Nat.cast_ofNat]
  ring

theorem rawTail_hasDeriv {z : ℝ} (hz : -0.01 ≤ z) : HasDerivAt rawTail
    (-(0.398942280 * √(2 * Real.pi)) * phi z * (1 - resid (4.317008 / (z + 4.317008)) / 4.317008)) z := by
  have hne : z + 4.317008 ≠ 0 := by linarith
  have ht : HasDerivAt (fun x : ℝ => 4.317008 / (x + 4.317008)) (-4.317008 / (z + 4.317008) ^ 2) z := by
    have h := ((hasDerivAt_id' z).add_const (4.317008 : ℝ)).inv hne
    have h2 := h.const_mul (4.317008 : ℝ)
    refine (h2.congr_deriv (by ring)).congr_of_eventuallyEq ?_
    exact Filter.Eventually.of_forall (fun x => by simp [div_eq_mul_inv])
  have he : HasDerivAt (fun x : ℝ => Real.exp (-0.5 * x ^ 2) * 0.398942280)
      (Real.exp (-0.5 * z ^ 2) * (-z) * 0.398942280) z := by
    have h := ((hasDerivAt_pow 2 z).const_mul (-0.5 : ℝ)).exp.mul_const (0.398942280 : ℝ)
    refine h.congr_deriv ?_
    norm_num
    ring
  have hh := (hastings_hasDeriv (4.317008 / (z + 4.317008))).comp z ht
  have hp := he.mul hh
  refine hp.congr_deriv ?_
  have hs : √(2 * Real.pi) * (√(2 * Real.pi))⁻¹ = 1 := mul_inv_cancel₀ (by have := Real.pi_pos; positivity)
  have hphi : -(0.398942280 * √(2 * Real.pi)) * phi z = -(0.398942280 * Real.exp (-z ^ 2 / 2)) := by
    unfold phi
    linear_combination (-(0.398942280 * Real.exp (-z ^ 2 / 2))) * hs
  rw [hphi]
  have hexp : Real.exp (-0.5 * z ^ 2) = Real.exp (-z ^ 2 / 2) := by congr 1; ring
  rw [hexp]
  simp only [Function.comp]
  generalize Real.exp (-z ^ 2 / 2) = E
  obtain ⟨t, e⟩ : ∃ t : ℝ, t = 4.317008 / (z + 4.317008) := ⟨_, rfl⟩
  have e2 : -4.317008 / (z + 4.317008) ^ 2 = -t ^ 2 / 4.317008 := by
    rw [e]; field_simp
  have e3 : z * t = 4.317008 * (1 - t) := by
    rw [e]; field_simp; ring
  rw [e2, ← e]
  unfold resid hastings
  linear_combination (-(E * 0.398942280) * ((((1.330274429 * t + -1.821255987) * t + 1.781477937) * t
    + -0.356563782) * t + 0.319381530)) * e3

/-- If the residual is at most `K` on `[a, b]`, the error changes by at most `K` times the change of the tail. -/
theorem err_change {a b K : ℝ} (ha : -0.01 ≤ a) (hab : a ≤ b) (hK0 : 0 ≤ K) (hK1 : K ≤ 1)
    (hK : ∀ z, a ≤ z → z ≤ b → |resid (4.317008 / (z + 4.317008))| ≤ 4.317008 * K) :
    |(rawTail a - normalTail a) - (rawTail b - normalTail b)| ≤ (K + 4e-8) * (normalTail a - normalTail b) := by
  have hb : ∀ z, a ≤ z → z ≤ b →
      |1 - 0.398942280 * √(2 * Real.pi) * (1 - resid (4.317008 / (z + 4.317008)) / 4.317008)| ≤ K + 4e-8 := by
    intro z h1 h2
    have h3 := hK z h1 h2
    have h4 := rsqrt_two_pi
    obtain ⟨k, ek⟩ : ∃ k, k = 0.398942280 * √(2 * Real.pi) := ⟨_, rfl⟩
    obtain ⟨r, er⟩ : ∃ r, r = resid (4.317008 / (z + 4.317008)) := ⟨_, rfl⟩
    rw [← ek] at h4 ⊢
    rw [← er] at h3 ⊢
    have h5 : |r / 4.317008| ≤ K := by
      rw [abs_div, abs_of_pos (by norm_num : (0 : ℝ) < 4.317008), div_le_iff₀ (by norm_num)]; linarith
    have e : 1 - k * (1 - r / 4.317008) = r / 4.317008 + (k - 1) * (r / 4.317008 - 1) := by ring
    rw [e]
    have h6 : |(k - 1) * (r / 4.317008 - 1)| ≤ 2e-8 * 2 := by
      rw [abs_mul]
      have : |r / 4.317008 - 1| ≤ 2 := by
        rw [abs_le] at h5 ⊢; constructor <;> linarith [h5.1, h5.2]
      exact mul_le_mul h4 this (abs_nonneg _) (by norm_num)
    calc _ ≤ |r / 4.317008| + |(k - 1) * (r / 4.317008 - 1)| := abs_add_le _ _
      _ ≤ K + 4e-8 := by linarith
  have hd : ∀ (s z : ℝ), -0.01 ≤ z → HasDerivAt (fun x => s * (rawTail x - normalTail x) - (K + 4e-8) * normalTail x)
      (s * (-(0.398942280 * √(2 * Real.pi)) * phi z * (1 - resid (4.317008 / (z + 4.317008)) / 4.317008) - -phi z)
        - (K + 4e-8) * -phi z) z := fun s z hz =>
    (((rawTail_hasDeriv hz).sub (normalTail_hasDeriv z)).const_mul s).sub ((normalTail_hasDeriv z).const_mul _)
  have hmono : ∀ s : ℝ, (s = 1 ∨ s = -1) →
      MonotoneOn (fun x => s * (rawTail x - normalTail x) - (K + 4e-8) * normalTail x) (Set.Icc a b) := by
    intro s hs
    apply monotoneOn_of_deriv_nonneg (convex_Icc a b)
    · exact fun x hx => (hd s x (le_trans ha hx.1)).continuousAt.continuousWithinAt
    · intro x hx
      rw [interior_Icc] at hx
      exact (hd s x (le_trans ha hx.1.le)).differentiableAt.differentiableWithinAt
    · intro x hx
      rw [interior_Icc] at hx
      rw [(hd s x (le_trans ha hx.1.le)).deriv]
      have h := hb x hx.1.le hx.2.le
      have hp := phi_pos x
      rw [abs_le] at h
      generalize 0.398942280 * √(2 * Real.pi) = k at *
      generalize 1 - resid (4.317008 / (x + 4.317008)) / 4.317008 = r at *
      have e : s * (-k * phi x * r - -phi x) - (K + 4e-8) * -phi x = phi x * (s * (1 - k * r) + (K + 4e-8)) := by ring
      rw [e]
      apply mul_nonneg hp.le
      rcases hs with rfl | rfl <;> linarith [h.1, h.2]
  have m1 := hmono 1 (Or.inl rfl) (Set.left_mem_Icc.2 hab) (Set.right_mem_Icc.2 hab) hab
  have m2 := hmono (-1) (Or.inr rfl) (Set.left_mem_Icc.2 hab) (Set.right_mem_Icc.2 hab) hab
  dsimp only at m1 m2
  rw [abs_le]; constructor <;> linarith

theorem rawTail_nonneg {z : ℝ} (hz : 0 ≤ z) : 0 ≤ rawTail z := by
  unfold rawTail
  have : 0 ≤ hastings (4.317008 / (z + 4.317008)) := by
    rw [← hastings_zero]; exact hastings_mono (by positivity)
  positivity

theorem exp_four_half : Real.exp (-(3 : ℝ) ^ 2 / 2) ≤ 0.01112 := by
  have h1 := Real.exp_one_gt_d9
  have e : Real.exp (-(3 : ℝ) ^ 2 / 2) ^ 2 = (Real.exp 1 ^ 9)⁻¹ := by
    rw [← Real.exp_nat_mul, ← Real.exp_nat_mul, ← Real.exp_neg]; congr 1; norm_num
  have h2 : (2.7182818283 : ℝ) ^ 9 ≤ Real.exp 1 ^ 9 := pow_le_pow_left₀ (by norm_num) h1.le 9
  have h3 : (Real.exp 1 ^ 9)⁻¹ ≤ ((2.7182818283 : ℝ) ^ 9)⁻¹ := inv_anti₀ (by positivity) h2
  have h4 : ((2.7182818283 : ℝ) ^ 9)⁻¹ ≤ 0.01112 ^ 2 := by norm_num
  have h5 := Real.exp_pos (-(3 : ℝ) ^ 2 / 2)
  generalize Real.exp (-(3 : ℝ) ^ 2 / 2) = x at *
  nlinarith

theorem exp_twelve : Real.exp (-(5 : ℝ) ^ 2 / 2) ≤ 4e-6 := by
  have h1 := Real.exp_one_gt_d9
  have e : Real.exp (-(5 : ℝ) ^ 2 / 2) ^ 2 = (Real.exp 1 ^ 25)⁻¹ := by
    rw [← Real.exp_nat_mul, ← Real.exp_nat_mul, ← Real.exp_neg]; congr 1; norm_num
  have h2 : (2.7182818283 : ℝ) ^ 25 ≤ Real.exp 1 ^ 25 := pow_le_pow_left₀ (by norm_num) h1.le 25
  have h3 : (Real.exp 1 ^ 25)⁻¹ ≤ ((2.7182818283 : ℝ) ^ 25)⁻¹ := inv_anti₀ (by positivity) h2
  have h4 : ((2.7182818283 : ℝ) ^ 25)⁻¹ ≤ 4e-6 ^ 2 := by norm_num
  have h5 := Real.exp_pos (-(5 : ℝ) ^ 2 / 2)
  generalize Real.exp (-(5 : ℝ) ^ 2 / 2) = x at *
  nlinarith

theorem phi_le (z : ℝ) : phi z ≤ 0.4 * Real.exp (-z ^ 2 / 2) := by
  unfold phi
  apply mul_le_mul_of_nonneg_right _ (Real.exp_pos _).le
  have h := rsqrt_two_pi
  have h0 : 0 < √(2 * Real.pi) := by have := Real.pi_pos; positivity
  generalize √(2 * Real.pi) = s at *
  rw [abs_le] at h
  have : 2.5 ≤ s := by linarith [h.1]
  rw [inv_le_comm₀ h0 (by norm_num)]
  linarith

theorem normalTail_three : normalTail 3 ≤ 1.49e-3 := by
  have h := normalTail_mills (z := 3) (by norm_num)
  have h2 := phi_le 3
  have h3 := exp_four_half
  have : phi 3 / 3 ≤ 1.49e-3 := by rw [div_le_iff₀ (by norm_num)]; linarith
  linarith

theorem normalTail_five : normalTail 5 ≤ 3.2e-7 := by
  have h := normalTail_mills (z := 5) (by norm_num)
  have h2 := phi_le 5
  have h3 := exp_twelve
  have : phi 5 / 5 ≤ 3.2e-7 := by rw [div_le_iff₀ (by norm_num)]; linarith
  linarith

theorem rawTail_five {z : ℝ} (hz : 5 ≤ z) : rawTail z ≤ 3.2e-7 := by
  unfold rawTail
  have h1 : Real.exp (-0.5 * z ^ 2) ≤ 4e-6 := by
    refine le_trans (Real.exp_le_exp.2 ?_) exp_twelve
    nlinarith
  have h2 : hastings (4.317008 / (z + 4.317008)) ≤ hastings 0.464 := by
    apply hastings_mono
    rw [div_le_iff₀ (by linarith)]; nlinarith
  have h3 : hastings 0.464 ≤ 0.2 := by unfold hastings; norm_num
  have h4 : 0 ≤ hastings (4.317008 / (z + 4.317008)) := by
    rw [← hastings_zero]; exact hastings_mono (by positivity)
  have h5 := Real.exp_pos (-0.5 * z ^ 2)
  generalize hastings (4.317008 / (z + 4.317008)) = a at *
  generalize Real.exp (-0.5 * z ^ 2) = b at *
  nlinarith [mul_nonneg h5.le h4, mul_le_mul h1 (h2.trans h3) h4 (by norm_num)]

theorem err_five {z : ℝ} (hz : 5 ≤ z) : |rawTail z - normalTail z| ≤ 3.2e-7 := by
  have h1 := rawTail_five hz
  have h2 := le_trans (normalTail_anti hz) normalTail_five
  have h3 := rawTail_nonneg (le_trans (by norm_num) hz)
  have h4 := normalTail_nonneg z
  rw [abs_le]; constructor <;> linarith

theorem err_three {z : ℝ} (h3 : 3 ≤ z) (h5 : z ≤ 5) : |rawTail z - normalTail z| ≤ 2.5e-6 := by
  have h := err_change (a := z) (b := 5) (K := 1.4e-3) (by linarith) h5 (by norm_num) (by norm_num) (by
    intro x hx1 hx2
    refine le_trans (residB ?_ ?_) (by norm_num)
    · rw [le_div_iff₀ (by linarith)]; nlinarith
    · rw [div_le_iff₀ (by linarith)]; nlinarith)
  have e5 := err_five (le_refl 5)
  have h6 := le_trans (normalTail_anti h3) normalTail_three
  have h7 := normalTail_nonneg 5
  rw [abs_le] at h e5 ⊢
  constructor <;> linarith [h.1, h.2, e5.1, e5.2]

theorem err_zero {z : ℝ} (h0 : 0 ≤ z) (h3 : z ≤ 3) : |rawTail z - normalTail z| ≤ 9.9e-6 := by
  have h := err_change (a := z) (b := 3) (K := 1.4e-5) (by linarith) h3 (by norm_num) (by norm_num) (by
    intro x hx1 hx2
    refine le_trans (residA ?_ ?_) (by norm_num)
    · rw [le_div_iff₀ (by linarith)]; nlinarith
    · rw [div_le_iff₀ (by linarith)]; nlinarith)
  have e3 := err_three (le_refl 3) (by norm_num)
  have h6 : normalTail z ≤ 1 / 2 := by rw [← normalTail_zero]; exact normalTail_anti h0
  have h7 := normalTail_nonneg 3
  rw [abs_le] at h e3 ⊢
  constructor <;> linarith [h.1, h.2, e3.1, e3.2]

theorem tail_accuracy {z : ℝ} (hz : 0 ≤ z) : |tail z - normalTail z| ≤ 9.9e-6 := by
  by_cases h10 : 10 ≤ z
  · have e : tail z = 0 := by simp [tail, h10]
    have h2 := le_trans (normalTail_anti (show (5 : ℝ) ≤ z by linarith)) normalTail_five
    have h4 := normalTail_nonneg z
    rw [e, abs_le]; constructor <;> linarith
  · have e : tail z = rawTail z := by simp [tail, h10, rawTail]
    rw [e]
    rcases le_total z 3 with h | h
    · exact err_zero hz h
    rcases le_total z 5 with h' | h'
    · exact (err_three h h').trans (by norm_num)
    · exact (err_five h').trans (by norm_num)

end Itm
