import Verif.Spec.EndToEnd
import Mathlib.Analysis.SpecialFunctions.Trigonometric.Deriv
import Mathlib.Analysis.Real.Pi.Bounds
import Mathlib.Analysis.Calculus.Deriv.MeanValue
import Mathlib.Analysis.SpecialFunctions.ExpDeriv
import Mathlib.Analysis.Complex.ExponentialBounds

/-! How the effective height of a sited antenna depends on its height over ground. -/

namespace Itm
open Itm.Spec

theorem exp_tangent {M b : ℝ} (h0 : 0 < M) (hb : M ≤ Real.exp b) (t : ℝ) : M * (1 + t - b) ≤ Real.exp t := by
  have h1 := Real.add_one_le_exp (t - b)
  have h2 : Real.exp t = Real.exp b * Real.exp (t - b) := by rw [← Real.exp_add]; congr 1; ring
  rw [h2]
  by_cases hs : 0 ≤ 1 + t - b
  · calc M * (1 + t - b) ≤ M * Real.exp (t - b) := mul_le_mul_of_nonneg_left (by linarith) h0.le
      _ ≤ _ := mul_le_mul_of_nonneg_right hb (Real.exp_pos _).le
  · have := mul_neg_of_pos_of_neg h0 (not_le.1 hs)
    have := mul_pos (Real.exp_pos b) (Real.exp_pos (t - b))
    linarith

theorem exp_lb1 : (4.8275 : ℝ) ≤ Real.exp 1.578 := by
  have e1 := Real.exp_one_gt_d9
  have e2 := Real.quadratic_le_exp_of_nonneg (x := 0.1445) (by norm_num)
  have e3 : Real.exp 1.578 = Real.exp 1 * Real.exp 0.1445 ^ 4 := by
    rw [← Real.exp_nat_mul, ← Real.exp_add]; congr 1; norm_num
  have e4 : (1.15 + 0.0049 : ℝ) ^ 4 ≤ Real.exp 0.1445 ^ 4 := pow_le_pow_left₀ (by norm_num) (le_trans (by norm_num) e2) 4
  rw [e3]
  refine le_trans ?_ (mul_le_mul e1.le e4 (by norm_num) (Real.exp_pos 1).le)
  norm_num

theorem exp_lb2 : (3.0775 : ℝ) ≤ Real.exp 1.18 := by
  have e1 := Real.exp_one_gt_d9
  have e2 := Real.add_one_le_exp (0.18 : ℝ)
  have e3 : Real.exp 1.18 = Real.exp 1 * Real.exp 0.18 := by rw [← Real.exp_add]; congr 1; norm_num
  rw [e3]
  refine le_trans ?_ (mul_le_mul e1.le e2 (by norm_num) (Real.exp_pos 1).le)
  norm_num

theorem exp_lb3 (t : ℝ) : 2.71 * t ≤ Real.exp t := by
  have e1 := Real.exp_one_gt_d9
  have := exp_tangent (M := 2.71) (b := 1) (by norm_num) (by norm_num at e1 ⊢; linarith) t
  linarith

/-- The gain of a height increment is larger than what is lost by the decay of the siting term. -/
theorem siting_slope {q h y : ℝ} (q0 : 0 ≤ q) (q9 : q ≤ 9) (h1 : 0.5 ≤ h) (h5 : h ≤ 5) (hy : 0 ≤ y) :
    y * (1 + q * Real.sin (0.3141593 * h)) - q * 0.3141593 * Real.cos (0.3141593 * h) ≤ Real.exp (y * h) := by
  have h0 : 0 < h := by norm_num at h1; linarith
  have t0 : 0 ≤ y * h := by positivity
  rcases le_total h 4 with h4 | h4
  · have s1 : Real.sin (0.3141593 * h) ≤ 0.3141593 * h := Real.sin_le (by positivity)
    have c1 := Real.one_sub_sq_div_two_le_cos (x := 0.3141593 * h)
    obtain ⟨K, hK⟩ : ∃ K, K = q * 0.3141593 := ⟨_, rfl⟩
    have K0 : 0 ≤ K := by rw [hK]; positivity
    have K1 : K ≤ 2.8275 := by rw [hK]; norm_num at q9 ⊢; linarith
    obtain ⟨t, ht⟩ : ∃ t, t = y * h := ⟨_, rfl⟩
    have a1 : y * (1 + q * Real.sin (0.3141593 * h)) ≤ y + K * t := by
      have := mul_le_mul_of_nonneg_left (mul_le_mul_of_nonneg_left s1 q0) hy
      rw [hK, ht]; linarith
    have a2 : K - K * (0.3141593 * h) ^ 2 / 2 ≤ q * 0.3141593 * Real.cos (0.3141593 * h) := by
      rw [← hK]
      have := mul_le_mul_of_nonneg_left c1 K0
      linarith
    have prod : 0 ≤ (h - 0.5) * (4 - h) := mul_nonneg (by linarith) (by linarith)
    have a3 : y ≤ t * (2.25 - 0.5 * h) := by
      rw [ht]
      have := mul_nonneg hy prod
      have e : y * h * (2.25 - 0.5 * h) - y = 0.5 * (y * ((h - 0.5) * (4 - h))) := by ring
      linarith
    have a4 : (0.3141593 * h) ^ 2 ≤ 0.3141593 ^ 2 * (4.5 * h - 2) := by
      have e : 0.3141593 ^ 2 * (4.5 * h - 2) - (0.3141593 * h) ^ 2 = 0.3141593 ^ 2 * ((h - 0.5) * (4 - h)) := by ring
      have := mul_nonneg (by norm_num : (0 : ℝ) ≤ 0.3141593 ^ 2) prod
      linarith
    have a5 := mul_le_mul_of_nonneg_left a4 K0
    rw [← ht]
    rw [← ht] at t0
    have f1 := exp_tangent (by norm_num) exp_lb1 t
    have f2 := exp_tangent (by norm_num) exp_lb2 t
    have f3 := exp_lb3 t
    generalize Real.exp t = E at *
    -- both ends of the range of heights, and both ends of the range of `K`
    have g1 : 2 * t + K * (t - 1) + K * 0.3141593 ^ 2 / 8 ≤ E := by
      have u1 : 0 ≤ E - (2 * t + 2.8275 * (t - 1) + 2.8275 * 0.3141593 ^ 2 / 8) := by norm_num at f1 ⊢; linarith
      have u2 : 0 ≤ E - 2 * t := by norm_num at f3; linarith
      have v1 := mul_nonneg K0 u1
      have v2 := mul_nonneg (by linarith : 0 ≤ 2.8275 - K) u2
      norm_num at *
      linarith
    have g2 : 0.25 * t + K * (t - 1) + 8 * K * 0.3141593 ^ 2 ≤ E := by
      have u1 : 0 ≤ E - (0.25 * t + 2.8275 * (t - 1) + 8 * 2.8275 * 0.3141593 ^ 2) := by norm_num at f2 ⊢; linarith
      have u2 : 0 ≤ E - 0.25 * t := by norm_num at f3 ⊢; linarith
      have v1 := mul_nonneg K0 u1
      have v2 := mul_nonneg (by linarith : 0 ≤ 2.8275 - K) u2
      norm_num at *
      linarith
    have w1 := mul_le_mul_of_nonneg_left g1 (by linarith : 0 ≤ 4 - h)
    have w2 := mul_le_mul_of_nonneg_left g2 (by linarith : 0 ≤ h - 0.5)
    have fin : t * (2.25 - 0.5 * h) + K * t - K + K * (0.3141593 ^ 2 * (4.5 * h - 2)) / 2 ≤ E := by
      have e : (4 - h) * (2 * t + K * (t - 1) + K * 0.3141593 ^ 2 / 8) + (h - 0.5) * (0.25 * t + K * (t - 1) + 8 * K * 0.3141593 ^ 2) =
        3.5 * (t * (2.25 - 0.5 * h) + K * t - K + K * (0.3141593 ^ 2 * (4.5 * h - 2)) / 2) := by ring
      have e2 : (4 - h) * E + (h - 0.5) * E = 3.5 * E := by ring
      linarith
    linarith
  · have s1 := Real.sin_le_one (0.3141593 * h)
    have c1 : -0.001 ≤ Real.cos (0.3141593 * h) := by
      have p := Real.pi_gt_d4
      rcases le_total (0.3141593 * h) (Real.pi / 2) with k | k
      · have x0 : 0 ≤ 0.3141593 * h := by positivity
        have := Real.cos_nonneg_of_neg_pi_div_two_le_of_le (x := 0.3141593 * h) (by linarith) k
        norm_num; linarith
      · have e : Real.cos (0.3141593 * h) = -Real.sin (0.3141593 * h - Real.pi / 2) := by rw [Real.sin_sub_pi_div_two]; ring
        have := Real.sin_le (x := 0.3141593 * h - Real.pi / 2) (by linarith)
        rw [e]
        norm_num at p this ⊢
        linarith
    have a1 : y * (1 + q * Real.sin (0.3141593 * h)) ≤ y * (1 + 9 * 1) := by
      refine mul_le_mul_of_nonneg_left ?_ hy
      have := mul_le_mul_of_nonneg_left s1 q0
      linarith
    have a2 : -0.003 ≤ q * 0.3141593 * Real.cos (0.3141593 * h) := by
      have v := mul_le_mul_of_nonneg_left c1 (by positivity : 0 ≤ q * 0.3141593)
      norm_num at v ⊢
      linarith
    have a3 : 4 * y ≤ y * h := by rw [mul_comm 4]; exact mul_le_mul_of_nonneg_left h4 hy
    have f3 := exp_lb3 (y * h)
    have f4 := Real.add_one_le_exp (y * h)
    generalize Real.exp (y * h) = E at *
    generalize y * h = t at *
    norm_num at *
    linarith

/-- The effective height with a siting term of slope `y`. -/
theorem siting_mono {q y : ℝ} (q0 : 0 ≤ q) (q9 : q ≤ 9) (hy : 0 ≤ y) :
    MonotoneOn (fun h => h + (1 + q * Real.sin (0.3141593 * h)) * Real.exp (-(y * h))) (Set.Icc 0.5 5) := by
  have hd : ∀ h, HasDerivAt (fun h => h + (1 + q * Real.sin (0.3141593 * h)) * Real.exp (-(y * h)))
      (1 + ((q * (Real.cos (0.3141593 * h) * 0.3141593)) * Real.exp (-(y * h)) + (1 + q * Real.sin (0.3141593 * h)) * (Real.exp (-(y * h)) * (-y)))) h := by
    intro h
    have l1 : HasDerivAt (fun h : ℝ => 0.3141593 * h) 0.3141593 h := by simpa using (hasDerivAt_id h).const_mul (0.3141593 : ℝ)
    have l2 : HasDerivAt (fun h : ℝ => -(y * h)) (-y) h := by
      have l := (hasDerivAt_id h).const_mul (-y)
      simpa using l
    have l3 := ((l1.sin.const_mul q).const_add 1).mul l2.exp
    exact (hasDerivAt_id h).add l3
  refine monotoneOn_of_deriv_nonneg (convex_Icc _ _) (fun h _ => (hd h).continuousAt.continuousWithinAt)
    (fun h _ => (hd h).differentiableAt.differentiableWithinAt) ?_
  intro h hh
  rw [interior_Icc] at hh
  rw [(hd h).deriv]
  have k := siting_slope q0 q9 hh.1.le hh.2.le hy
  have e : Real.exp (y * h) * Real.exp (-(y * h)) = 1 := by rw [← Real.exp_add]; simp
  have := mul_le_mul_of_nonneg_right k (Real.exp_pos (-(y * h))).le
  rw [e] at this
  linarith

/-- The same where the decay is capped. -/
theorem siting_capped {q : ℝ} (q0 : 0 ≤ q) (q9 : q ≤ 9) {h h' : ℝ} (hh : h ≤ h') :
    h + (1 + q * Real.sin (0.3141593 * h)) * Real.exp (-20) ≤ h' + (1 + q * Real.sin (0.3141593 * h')) * Real.exp (-20) := by
  have m : Monotone (fun h => h + (1 + q * Real.sin (0.3141593 * h)) * Real.exp (-20)) := by
    have hd : ∀ h, HasDerivAt (fun h => h + (1 + q * Real.sin (0.3141593 * h)) * Real.exp (-20))
        (1 + (q * (Real.cos (0.3141593 * h) * 0.3141593)) * Real.exp (-20)) h := by
      intro h
      have l1 : HasDerivAt (fun h : ℝ => 0.3141593 * h) 0.3141593 h := by simpa using (hasDerivAt_id h).const_mul (0.3141593 : ℝ)
      exact (hasDerivAt_id h).add (((l1.sin.const_mul q).const_add 1).mul_const _)
    refine monotone_of_deriv_nonneg (fun h => (hd h).differentiableAt) (fun h => ?_)
    rw [(hd h).deriv]
    have c := Real.neg_one_le_cos (0.3141593 * h)
    have e : Real.exp (-20) ≤ 0.2 := by
      rw [Real.exp_neg]
      have := Real.add_one_le_exp (20 : ℝ)
      exact (inv_anti₀ (by norm_num) this).trans (by norm_num)
    have e0 := Real.exp_pos (-20)
    have a := mul_le_mul_of_nonneg_left c (by positivity : 0 ≤ q * 0.3141593 * Real.exp (-20))
    have b := mul_le_mul q9 e e0.le (by norm_num)
    norm_num at *
    linarith
  exact m hh

theorem exp_cap (u : ℝ) : Real.exp (-min 20 u) = max (Real.exp (-20)) (Real.exp (-u)) := by
  rcases le_total 20 u with h | h
  · rw [min_eq_left h, max_eq_left (Real.exp_le_exp.2 (by linarith))]
  · rw [min_eq_right h, max_eq_right (Real.exp_le_exp.2 (by linarith))]

/-- The effective height above 5 m. -/
theorem siting_high {q y h h' : ℝ} (q0 : 0 ≤ q) (q9 : q ≤ 9) (hy : 0 ≤ y) (h5 : 5 ≤ h) (hh : h ≤ h') :
    h + (1 + q) * Real.exp (-min 20 (y * h)) ≤ h' + (1 + q) * Real.exp (-min 20 (y * h')) := by
  have m : MonotoneOn (fun h => h + (1 + q) * Real.exp (-(y * h))) (Set.Ici 5) := by
    have hd : ∀ h, HasDerivAt (fun h => h + (1 + q) * Real.exp (-(y * h))) (1 + (1 + q) * (Real.exp (-(y * h)) * (-y))) h := by
      intro h
      have l2 : HasDerivAt (fun h : ℝ => -(y * h)) (-y) h := by
        have l := (hasDerivAt_id h).const_mul (-y)
        simpa using l
      exact (hasDerivAt_id h).add (l2.exp.const_mul _)
    refine monotoneOn_of_deriv_nonneg (convex_Ici _) (fun h _ => (hd h).continuousAt.continuousWithinAt)
      (fun h _ => (hd h).differentiableAt.differentiableWithinAt) ?_
    intro h hh
    rw [interior_Ici] at hh
    rw [(hd h).deriv]
    have f := exp_lb3 (y * h)
    have a3 : y * 5 ≤ y * h := mul_le_mul_of_nonneg_left (le_of_lt hh) hy
    have a4 : (1 + q) * y ≤ Real.exp (y * h) := by
      have := mul_le_mul_of_nonneg_right q9 hy
      norm_num at *; linarith
    have e : Real.exp (y * h) * Real.exp (-(y * h)) = 1 := by rw [← Real.exp_add]; simp
    have := mul_le_mul_of_nonneg_right a4 (Real.exp_pos (-(y * h))).le
    rw [e] at this
    linarith
  have m' := m (show h ∈ Set.Ici 5 from h5) (show h' ∈ Set.Ici 5 from h5.trans hh) hh
  rw [exp_cap, exp_cap, mul_max_of_nonneg _ _ (by linarith), mul_max_of_nonneg _ _ (by linarith), ← max_add_add_left, ← max_add_add_left]
  exact max_le_max (by linarith) m'

theorem siting_low {q y h h' : ℝ} (q0 : 0 ≤ q) (q9 : q ≤ 9) (hy : 0 ≤ y) (h1 : 0.5 ≤ h) (hh : h ≤ h') (h5 : h' ≤ 5) :
    h + (1 + q * Real.sin (0.3141593 * h)) * Real.exp (-min 20 (y * h)) ≤ h' + (1 + q * Real.sin (0.3141593 * h')) * Real.exp (-min 20 (y * h')) := by
  have p : ∀ h : ℝ, 0.5 ≤ h → h ≤ 5 → 0 ≤ 1 + q * Real.sin (0.3141593 * h) := by
    intro h a b
    have : 0 ≤ Real.sin (0.3141593 * h) := by
      apply Real.sin_nonneg_of_nonneg_of_le_pi
      · norm_num at a ⊢; linarith
      · have := Real.pi_gt_three
        norm_num; linarith
    have := mul_nonneg q0 this
    linarith
  have m' := siting_mono q0 q9 hy (show h ∈ Set.Icc 0.5 5 from ⟨h1, hh.trans h5⟩) (show h' ∈ Set.Icc 0.5 5 from ⟨h1.trans hh, h5⟩) hh
  rw [exp_cap, exp_cap, mul_max_of_nonneg _ _ (p h h1 (hh.trans h5)), mul_max_of_nonneg _ _ (p h' (h1.trans hh) h5), ← max_add_add_left, ← max_add_add_left]
  exact max_le_max (siting_capped q0 q9 hh) m'

/-- Within the limits of the model a higher antenna has a larger effective height, whatever the siting. -/
theorem sited_mono {k : ℤ} {dh h h' : ℝ} (h1 : 0.5 ≤ h) (hh : h ≤ h') : sitedHeight k h dh ≤ sitedHeight k h' dh := by
  unfold sitedHeight
  by_cases k0 : k ≤ 0
  · rw [if_pos k0, if_pos k0]; exact hh
  rw [if_neg k0, if_neg k0]
  dsimp only
  have m0 : 0 < max 1e-3 dh := lt_of_lt_of_le (by norm_num) (le_max_left _ _)
  obtain ⟨y, hy⟩ : ∃ y, y = 2 / max 1e-3 dh := ⟨_, rfl⟩
  have y0 : 0 ≤ y := by rw [hy]; positivity
  have e : ∀ x : ℝ, 2 * x / max 1e-3 dh = y * x := fun x => by rw [hy]; ring
  rw [e, e]
  obtain ⟨q, hq⟩ : ∃ q : ℝ, q = if k = 1 then 4 else 9 := ⟨_, rfl⟩
  rw [← hq]
  have q0 : 0 ≤ q := by rw [hq]; split_ifs <;> norm_num
  have q9 : q ≤ 9 := by rw [hq]; split_ifs <;> norm_num
  by_cases a : h < 5
  · by_cases b : h' < 5
    · rw [if_pos a, if_pos b]; exact siting_low q0 q9 y0 h1 hh b.le
    · rw [if_pos a, if_neg b, mul_one]
      push Not at b
      refine (siting_low q0 q9 y0 h1 a.le le_rfl).trans (le_trans ?_ (siting_high q0 q9 y0 le_rfl b))
      have := mul_le_mul_of_nonneg_left (Real.sin_le_one (0.3141593 * 5)) q0
      have := mul_le_mul_of_nonneg_right (show 1 + q * Real.sin (0.3141593 * 5) ≤ 1 + q by linarith) (Real.exp_pos (-min 20 (y * 5))).le
      linarith
  · rw [if_neg a, if_neg (by push Not at a ⊢; linarith), mul_one]
    exact siting_high q0 q9 y0 (not_lt.1 a) hh

/-- Rougher ground never lowers an effective height. -/
theorem sited_rough {k : ℤ} {dh dh' h : ℝ} (h0 : 0 < h) (hd : dh ≤ dh') : sitedHeight k h dh ≤ sitedHeight k h dh' := by
  unfold sitedHeight
  by_cases k0 : k ≤ 0
  · rw [if_pos k0, if_pos k0]
  rw [if_neg k0, if_neg k0]
  dsimp only
  have m0 : 0 < max 1e-3 dh := lt_of_lt_of_le (by norm_num) (le_max_left _ _)
  have q0 : (0 : ℝ) ≤ 1 + (if k = 1 then 4 else 9) * (if h < 5 then Real.sin (0.3141593 * h) else 1) := by
    have s : (0 : ℝ) ≤ if h < 5 then Real.sin (0.3141593 * h) else 1 := by
      split_ifs with a
      · apply Real.sin_nonneg_of_nonneg_of_le_pi (by positivity)
        have := Real.pi_gt_three
        norm_num; linarith
      · norm_num
    split_ifs at s ⊢ <;> norm_num at s ⊢ <;> linarith
  have : Real.exp (-min 20 (2 * h / max 1e-3 dh)) ≤ Real.exp (-min 20 (2 * h / max 1e-3 dh')) := by
    apply Real.exp_le_exp.2
    have := div_le_div_of_nonneg_left (by linarith : 0 ≤ 2 * h) m0 (max_le_max (le_refl (1e-3 : ℝ)) hd)
    have := min_le_min (le_refl (20 : ℝ)) this
    linarith
  have := mul_le_mul_of_nonneg_left this q0
  linarith

/-! Horizons grow with the effective height. -/

theorem reach_mono {κ h h' : ℝ} (hκ : 0 < κ) (hh : h ≤ h') : smoothReach κ h ≤ smoothReach κ h' := by
  unfold smoothReach
  exact Real.sqrt_le_sqrt (by gcongr)

theorem damping_mono {dh h h' : ℝ} (hd : 0 ≤ dh) (hh : h ≤ h') : √(dh / max h' 5) ≤ √(dh / max h 5) := by
  apply Real.sqrt_le_sqrt
  exact div_le_div_of_nonneg_left hd (lt_of_lt_of_le (by norm_num) (le_max_right _ _)) (max_le_max hh le_rfl)

theorem horizon_mono {κ dh h h' : ℝ} (hκ : 0 < κ) (hd : 0 ≤ dh) (hh : h ≤ h') : roughHorizon κ dh h ≤ roughHorizon κ dh h' := by
  unfold roughHorizon
  refine mul_le_mul (reach_mono hκ hh) (Real.exp_le_exp.2 ?_) (Real.exp_pos _).le (Real.sqrt_nonneg _)
  have := damping_mono hd hh
  generalize √(dh / max h' 5) = a at *
  generalize √(dh / max h 5) = b at *
  norm_num; linarith

theorem horizon_rough {κ dh dh' h : ℝ} (hd : dh ≤ dh') : roughHorizon κ dh' h ≤ roughHorizon κ dh h := by
  unfold roughHorizon
  refine mul_le_mul_of_nonneg_left (Real.exp_le_exp.2 ?_) (Real.sqrt_nonneg _)
  have : √(dh / max h 5) ≤ √(dh' / max h 5) := Real.sqrt_le_sqrt (div_le_div_of_nonneg_right hd (le_trans (by norm_num) (le_max_right _ _)))
  generalize √(dh / max h 5) = a at *
  generalize √(dh' / max h 5) = b at *
  norm_num; linarith

/-- The angle in terms of the reach. -/
theorem angle_eq {κ dh h : ℝ} (hκ : 0 < κ) (hh : 0 < h) :
    roughAngle κ dh h = 0.65 * dh * (Real.exp (0.07 * √(dh / max h 5)) - 1) / smoothReach κ h - κ * smoothReach κ h := by
  have r0 := smoothReach_pos hκ hh
  have e : smoothReach κ h / roughHorizon κ dh h = Real.exp (0.07 * √(dh / max h 5)) := by
    unfold roughHorizon
    rw [div_mul_eq_div_div, div_self r0.ne', neg_mul, Real.exp_neg, one_div, inv_inv]
  have s : smoothReach κ h * smoothReach κ h = 2 * h / κ := Real.mul_self_sqrt (by positivity)
  have s' : 2 * h = κ * smoothReach κ h * smoothReach κ h := by rw [mul_assoc, s]; field_simp
  unfold roughAngle
  rw [e, s', sub_div, mul_div_assoc (κ * smoothReach κ h), div_self r0.ne', mul_one]

theorem damping_gain {dh : ℝ} {x : ℝ} (hd : 0 ≤ dh) : 0 ≤ 0.65 * dh * (Real.exp (0.07 * √x) - 1) := by
  have : 0 ≤ Real.exp (0.07 * √x) - 1 := by
    have : 1 ≤ Real.exp (0.07 * √x) := Real.one_le_exp (by positivity)
    linarith
  positivity

theorem angle_mono {κ dh h h' : ℝ} (hκ : 0 < κ) (hd : 0 ≤ dh) (h0 : 0 < h) (hh : h ≤ h') : roughAngle κ dh h' ≤ roughAngle κ dh h := by
  rw [angle_eq hκ h0, angle_eq hκ (h0.trans_le hh)]
  have r0 := smoothReach_pos hκ h0
  have r1 := reach_mono hκ hh
  have d : 0.65 * dh * (Real.exp (0.07 * √(dh / max h' 5)) - 1) ≤ 0.65 * dh * (Real.exp (0.07 * √(dh / max h 5)) - 1) := by
    have e : Real.exp (0.07 * √(dh / max h' 5)) ≤ Real.exp (0.07 * √(dh / max h 5)) :=
      Real.exp_le_exp.2 (mul_le_mul_of_nonneg_left (damping_mono hd hh) (by norm_num))
    exact mul_le_mul_of_nonneg_left (by linarith) (by positivity)
  have := div_le_div₀ (damping_gain hd) d r0 r1
  have := mul_le_mul_of_nonneg_left r1 hκ.le
  linarith

theorem angle_rough {κ dh dh' h : ℝ} (hκ : 0 < κ) (hd : 0 ≤ dh) (hdd : dh ≤ dh') (h0 : 0 < h) : roughAngle κ dh h ≤ roughAngle κ dh' h := by
  rw [angle_eq hκ h0, angle_eq hκ h0]
  have r0 := smoothReach_pos hκ h0
  have d : 0.65 * dh * (Real.exp (0.07 * √(dh / max h 5)) - 1) ≤ 0.65 * dh' * (Real.exp (0.07 * √(dh' / max h 5)) - 1) := by
    have s : √(dh / max h 5) ≤ √(dh' / max h 5) := Real.sqrt_le_sqrt (div_le_div_of_nonneg_right hdd (le_trans (by norm_num) (le_max_right _ _)))
    have e := Real.exp_le_exp.2 (mul_le_mul_of_nonneg_left s (by norm_num : (0 : ℝ) ≤ 0.07))
    have o : 1 ≤ Real.exp (0.07 * √(dh / max h 5)) := Real.one_le_exp (by positivity)
    have d1 : 0 ≤ dh' := hd.trans hdd
    exact mul_le_mul (mul_le_mul_of_nonneg_left hdd (by norm_num)) (by linarith) (by linarith) (by positivity)
  have := div_le_div_of_nonneg_right d r0.le
  linarith

end Itm
