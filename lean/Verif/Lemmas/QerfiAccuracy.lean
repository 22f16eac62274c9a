import Verif.Lemmas.QerfAccuracy
import Verif.Lemmas.QerfiCert
import Verif.Lemmas.Qerfi
import Verif.Lemmas.LogBounds

/-! Distance between the deviate of `qerfi` and the exact one: `normalTail (dev r + 0.005) ≤ exp (-r²/2)` and
`exp (-r²/2) ≤ normalTail (dev r - 0.005)`, because `normalTail (dev r ± 0.005) * exp (r²/2)` is monotone in `r`. -/

namespace Itm

open Spec

/-! ### Rational bounds for the ratio of tail and density -/

theorem phi_mul_tendsto {m : ℝ → ℝ} {a : ℝ} (hb : ∀ x, a ≤ x → |m x| ≤ 1) :
    Filter.Tendsto (fun x => phi x * m x - normalTail x) Filter.atTop (nhds 0) := by
  have h1 : Filter.Tendsto (fun x => phi x * m x) Filter.atTop (nhds 0) := by
    rw [tendsto_zero_iff_abs_tendsto_zero]
    refine squeeze_zero' (Filter.Eventually.of_forall fun x => abs_nonneg _) ?_ phi_tendsto
    filter_upwards [Filter.eventually_ge_atTop a] with x hx
    simp only [Function.comp, abs_mul, abs_of_pos (phi_pos x)]
    have := hb x hx
    have hp := phi_pos x
    nlinarith
  have := h1.sub normalTail_tendsto
  simpa using this

theorem mills_hasDeriv {m : ℝ → ℝ} {m' x : ℝ} (h : HasDerivAt m m' x) :
    HasDerivAt (fun x => phi x * m x - normalTail x) (phi x * (1 + m' - x * m x)) x :=
  (((phi_hasDeriv x).mul h).sub (normalTail_hasDeriv x)).congr_deriv (by ring)

theorem mills_upper {m m' : ℝ → ℝ} {a : ℝ} (hd : ∀ x, a ≤ x → HasDerivAt m (m' x) x)
    (hb : ∀ x, a ≤ x → |m x| ≤ 1) (hs : ∀ x, a ≤ x → 1 + m' x - x * m x ≤ 0) {x : ℝ} (hx : a ≤ x) :
    normalTail x ≤ phi x * m x := by
  have hanti : AntitoneOn (fun x => phi x * m x - normalTail x) (Set.Ici a) := by
    apply antitoneOn_of_deriv_nonpos (convex_Ici a)
    · exact fun y hy => (mills_hasDeriv (hd y hy)).continuousAt.continuousWithinAt
    · intro y hy
      rw [interior_Ici] at hy
      exact (mills_hasDeriv (hd y (le_of_lt hy))).differentiableAt.differentiableWithinAt
    · intro y hy
      rw [interior_Ici] at hy
      rw [(mills_hasDeriv (hd y (le_of_lt hy))).deriv]
      exact mul_nonpos_of_nonneg_of_nonpos (phi_pos y).le (hs y (le_of_lt hy))
  have h0 : 0 ≤ phi x * m x - normalTail x := by
    refine le_of_tendsto (phi_mul_tendsto hb) ?_
    filter_upwards [Filter.eventually_ge_atTop x] with y hy
    exact hanti hx (le_trans hx hy) hy
  linarith

theorem mills_lower {m m' : ℝ → ℝ} {a : ℝ} (hd : ∀ x, a ≤ x → HasDerivAt m (m' x) x)
    (hb : ∀ x, a ≤ x → |m x| ≤ 1) (hs : ∀ x, a ≤ x → 0 ≤ 1 + m' x - x * m x) {x : ℝ} (hx : a ≤ x) :
    phi x * m x ≤ normalTail x := by
  have hmono : MonotoneOn (fun x => phi x * m x - normalTail x) (Set.Ici a) := by
    apply monotoneOn_of_deriv_nonneg (convex_Ici a)
    · exact fun y hy => (mills_hasDeriv (hd y hy)).continuousAt.continuousWithinAt
    · intro y hy
      rw [interior_Ici] at hy
      exact (mills_hasDeriv (hd y (le_of_lt hy))).differentiableAt.differentiableWithinAt
    · intro y hy
      rw [interior_Ici] at hy
      rw [(mills_hasDeriv (hd y (le_of_lt hy))).deriv]
      exact mul_nonneg (phi_pos y).le (hs y (le_of_lt hy))
  have h0 : phi x * m x - normalTail x ≤ 0 := by
    refine ge_of_tendsto (phi_mul_tendsto hb) ?_
    filter_upwards [Filter.eventually_ge_atTop x] with y hy
    exact hmono hx (le_trans hx hy) hy
  linarith

/-- Sixth convergent of the continued fraction of the Mills ratio. -/
theorem tail_cfrac_upper {x : ℝ} (hx : 1 ≤ x) :
    normalTail x ≤ phi x * ((8 + 9 * x ^ 2 + x ^ 4) / (15 * x + 10 * x ^ 3 + x ^ 5)) := by
  refine mills_upper (a := 1) (m := fun x => (8 + 9 * x ^ 2 + x ^ 4) / (15 * x + 10 * x ^ 3 + x ^ 5))
    (m' := fun x => ((18 * x + 4 * x ^ 3) * (15 * x + 10 * x ^ 3 + x ^ 5) -
      (8 + 9 * x ^ 2 + x ^ 4) * (15 + 30 * x ^ 2 + 5 * x ^ 4)) / (15 * x + 10 * x ^ 3 + x ^ 5) ^ 2) ?_ ?_ ?_ hx
  · intro y hy
    have hne : 15 * y + 10 * y ^ 3 + y ^ 5 ≠ 0 := by positivity
    have h1 : HasDerivAt (fun x : ℝ => 8 + 9 * x ^ 2 + x ^ 4) (18 * y + 4 * y ^ 3) y := by
      have := (((hasDerivAt_pow 2 y).const_mul (9 : ℝ)).const_add 8).add (hasDerivAt_pow 4 y)
      exact this.congr_deriv (by norm_num; ring)
    have h2 : HasDerivAt (fun x : ℝ => 15 * x + 10 * x ^ 3 + x ^ 5) (15 + 30 * y ^ 2 + 5 * y ^ 4) y := by
      have := (((hasDerivAt_id' y).const_mul (15 : ℝ)).add ((hasDerivAt_pow 3 y).const_mul (10 : ℝ))).add
        (hasDerivAt_pow 5 y)
      exact this.congr_deriv (by norm_num; ring)
    exact h1.div h2 hne
  · intro y hy
    have hpos : 0 < 15 * y + 10 * y ^ 3 + y ^ 5 := by positivity
    rw [abs_of_nonneg (by positivity), div_le_one hpos]
    nlinarith [pow_pos (by linarith : 0 < y) 3, pow_pos (by linarith : 0 < y) 4, pow_pos (by linarith : 0 < y) 2,
      mul_nonneg (by linarith : 0 ≤ y - 1) (pow_pos (by linarith : 0 < y) 4).le,
      mul_nonneg (by linarith : 0 ≤ y - 1) (pow_pos (by linarith : 0 < y) 2).le]
  · intro y hy
    have hpos : 0 < 15 * y + 10 * y ^ 3 + y ^ 5 := by positivity
    have e : 1 + ((18 * y + 4 * y ^ 3) * (15 * y + 10 * y ^ 3 + y ^ 5) -
        (8 + 9 * y ^ 2 + y ^ 4) * (15 + 30 * y ^ 2 + 5 * y ^ 4)) / (15 * y + 10 * y ^ 3 + y ^ 5) ^ 2 -
        y * ((8 + 9 * y ^ 2 + y ^ 4) / (15 * y + 10 * y ^ 3 + y ^ 5)) = -(120 / (15 * y + 10 * y ^ 3 + y ^ 5) ^ 2) := by
      field_simp
      ring
    rw [e]
    have : 0 < 120 / (15 * y + 10 * y ^ 3 + y ^ 5) ^ 2 := by positivity
    linarith

/-- Seventh convergent. -/
theorem tail_cfrac_lower {x : ℝ} (hx : 1 ≤ x) :
    phi x * ((33 * x + 14 * x ^ 3 + x ^ 5) / (15 + 45 * x ^ 2 + 15 * x ^ 4 + x ^ 6)) ≤ normalTail x := by
  refine mills_lower (a := 1) (m := fun x => (33 * x + 14 * x ^ 3 + x ^ 5) / (15 + 45 * x ^ 2 + 15 * x ^ 4 + x ^ 6))
    (m' := fun x => ((33 + 42 * x ^ 2 + 5 * x ^ 4) * (15 + 45 * x ^ 2 + 15 * x ^ 4 + x ^ 6) -
      (33 * x + 14 * x ^ 3 + x ^ 5) * (90 * x + 60 * x ^ 3 + 6 * x ^ 5)) /
        (15 + 45 * x ^ 2 + 15 * x ^ 4 + x ^ 6) ^ 2) ?_ ?_ ?_ hx
  · intro y hy
    have hne : 15 + 45 * y ^ 2 + 15 * y ^ 4 + y ^ 6 ≠ 0 := by positivity
    have h1 : HasDerivAt (fun x : ℝ => 33 * x + 14 * x ^ 3 + x ^ 5) (33 + 42 * y ^ 2 + 5 * y ^ 4) y := by
      have := (((hasDerivAt_id' y).const_mul (33 : ℝ)).add ((hasDerivAt_pow 3 y).const_mul (14 : ℝ))).add
        (hasDerivAt_pow 5 y)
      exact this.congr_deriv (by norm_num; ring)
    have h2 : HasDerivAt (fun x : ℝ => 15 + 45 * x ^ 2 + 15 * x ^ 4 + x ^ 6) (90 * y + 60 * y ^ 3 + 6 * y ^ 5) y := by
      have := ((((hasDerivAt_pow 2 y).const_mul (45 : ℝ)).const_add 15).add
        ((hasDerivAt_pow 4 y).const_mul (15 : ℝ))).add (hasDerivAt_pow 6 y)
      exact this.congr_deriv (by norm_num; ring)
    exact h1.div h2 hne
  · intro y hy
    have hpos : 0 < 15 + 45 * y ^ 2 + 15 * y ^ 4 + y ^ 6 := by positivity
    rw [abs_of_nonneg (by positivity), div_le_one hpos]
    nlinarith [pow_pos (by linarith : 0 < y) 3, pow_pos (by linarith : 0 < y) 4, pow_pos (by linarith : 0 < y) 2,
      mul_nonneg (by linarith : 0 ≤ y - 1) (pow_pos (by linarith : 0 < y) 5).le,
      mul_nonneg (by linarith : 0 ≤ y - 1) (pow_pos (by linarith : 0 < y) 3).le,
      mul_nonneg (by linarith : 0 ≤ y - 1) (by linarith : (0 : ℝ) ≤ y)]
  · intro y hy
    have hpos : 0 < 15 + 45 * y ^ 2 + 15 * y ^ 4 + y ^ 6 := by positivity
    have e : 1 + ((33 + 42 * y ^ 2 + 5 * y ^ 4) * (15 + 45 * y ^ 2 + 15 * y ^ 4 + y ^ 6) -
        (33 * y + 14 * y ^ 3 + y ^ 5) * (90 * y + 60 * y ^ 3 + 6 * y ^ 5)) / (15 + 45 * y ^ 2 + 15 * y ^ 4 + y ^ 6) ^ 2 -
        y * ((33 * y + 14 * y ^ 3 + y ^ 5) / (15 + 45 * y ^ 2 + 15 * y ^ 4 + y ^ 6)) =
        720 / (15 + 45 * y ^ 2 + 15 * y ^ 4 + y ^ 6) ^ 2 := by
      field_simp
      ring
    rw [e]
    positivity

/-! ### The Hastings tail as a bound, up to 3 deviations -/

theorem rawTail_phi (z : ℝ) :
    rawTail z = 0.398942280 * √(2 * Real.pi) * (phi z * hastings (4.317008 / (z + 4.317008))) := by
  have hs : √(2 * Real.pi) * (√(2 * Real.pi))⁻¹ = 1 := mul_inv_cancel₀ (by have := Real.pi_pos; positivity)
  have hexp : Real.exp (-0.5 * z ^ 2) = Real.exp (-z ^ 2 / 2) := by congr 1; ring
  unfold rawTail phi
  rw [hexp]
  generalize Real.exp (-z ^ 2 / 2) = E
  generalize hastings (4.317008 / (z + 4.317008)) = h
  linear_combination (-(E * 0.398942280 * h)) * hs

theorem err_rel_three : |rawTail 3 - normalTail 3| ≤ 2.3e-4 * normalTail 3 := by
  have h1 := tail_cfrac_upper (x := 3) (by norm_num)
  have h2 := tail_cfrac_lower (x := 3) (by norm_num)
  have h3 := rsqrt_two_pi
  have hp := phi_pos 3
  have e := rawTail_phi 3
  have hh : hastings (4.317008 / (3 + 4.317008)) = hastings (4.317008 / 7.317008) := by norm_num
  have hl : 0.304605 ≤ hastings (4.317008 / 7.317008) := by unfold hastings; norm_num
  have hu : hastings (4.317008 / 7.317008) ≤ 0.304607 := by unfold hastings; norm_num
  rw [hh] at e
  rw [e]
  have c1 : (8 + 9 * (3 : ℝ) ^ 2 + 3 ^ 4) / (15 * 3 + 10 * 3 ^ 3 + 3 ^ 5) ≤ 0.304660 := by norm_num
  have c2 : 0.304568 ≤ (33 * (3 : ℝ) + 14 * 3 ^ 3 + 3 ^ 5) / (15 + 45 * 3 ^ 2 + 15 * 3 ^ 4 + 3 ^ 6) := by norm_num
  generalize 0.398942280 * √(2 * Real.pi) = k at *
  generalize hastings (4.317008 / 7.317008) = h at *
  have b1 : normalTail 3 ≤ phi 3 * 0.304660 := h1.trans (mul_le_mul_of_nonneg_left c1 hp.le)
  have b2 : phi 3 * 0.304568 ≤ normalTail 3 := (mul_le_mul_of_nonneg_left c2 hp.le).trans h2
  rw [abs_le] at h3
  have k1 : k * (phi 3 * h) ≤ (1 + 2e-8) * (phi 3 * 0.304607) := by
    apply mul_le_mul (by linarith [h3.2]) (mul_le_mul_of_nonneg_left hu hp.le) (by nlinarith) (by norm_num)
  have k2 : (1 - 2e-8) * (phi 3 * 0.304605) ≤ k * (phi 3 * h) := by
    apply mul_le_mul (by linarith [h3.1]) (mul_le_mul_of_nonneg_left hl hp.le) (by positivity) (by linarith [h3.1])
  rw [abs_le]; constructor <;> nlinarith

theorem err_rel {z : ℝ} (h0 : -0.01 ≤ z) (h3 : z ≤ 3) : |rawTail z - normalTail z| ≤ 2.5e-4 * normalTail z := by
  have h := err_change (a := z) (b := 3) (K := 1.4e-5) h0 h3 (by norm_num) (by norm_num) (by
    intro x hx1 hx2
    refine le_trans (residA ?_ ?_) (by norm_num)
    · rw [le_div_iff₀ (by linarith)]; nlinarith
    · rw [div_le_iff₀ (by linarith)]; nlinarith)
  have e3 := err_rel_three
  have h6 := normalTail_anti h3
  have h7 := normalTail_nonneg 3
  rw [abs_le] at h e3 ⊢
  constructor <;> linarith [h.1, h.2, e3.1, e3.2]

theorem hastings_pos {t : ℝ} (h0 : 0 < t) : 0 ≤ hastings t := by
  rw [← hastings_zero]; exact hastings_mono h0.le

theorem tail_hastings {z : ℝ} (h0 : -0.01 ≤ z) (h3 : z ≤ 3) :
    (1 - 3e-4) * (phi z * hastings (4.317008 / (z + 4.317008))) ≤ normalTail z ∧
      normalTail z ≤ (1 + 3e-4) * (phi z * hastings (4.317008 / (z + 4.317008))) := by
  have h := err_rel h0 h3
  have hk := rsqrt_two_pi
  have hn := normalTail_nonneg z
  have hp : 0 ≤ phi z * hastings (4.317008 / (z + 4.317008)) :=
    mul_nonneg (phi_pos z).le (hastings_pos (div_pos (by norm_num) (by linarith)))
  rw [rawTail_phi] at h
  generalize 0.398942280 * √(2 * Real.pi) = k at *
  generalize phi z * hastings (4.317008 / (z + 4.317008)) = g at *
  rw [abs_le] at h hk
  have k1 : (1 - 2e-8) * g ≤ k * g := mul_le_mul_of_nonneg_right (by linarith [hk.1]) hp
  have k2 : k * g ≤ (1 + 2e-8) * g := mul_le_mul_of_nonneg_right (by linarith [hk.2]) hp
  constructor <;> nlinarith [h.1, h.2]

/-! ### Derivative of the deviate -/

theorem devD_pos {r : ℝ} (hr : 0 ≤ r) : 0 < devD r := by unfold devD; positivity

theorem dev_eq (r : ℝ) : dev r = r - devN r / devD r := rfl

theorem dev_hasDeriv {r : ℝ} (hr : 0 ≤ r) : HasDerivAt dev (devV r / devD r ^ 2) r := by
  have hne := (devD_pos hr).ne'
  have hN : HasDerivAt devN (2 * 0.010328 * r + 0.802853) r := by
    have h := (((hasDerivAt_id' r).const_mul (0.010328 : ℝ)).add_const 0.802853).mul (hasDerivAt_id' r)
    exact (h.add_const 2.515516698).congr_deriv (by ring)
  have hD : HasDerivAt devD (3 * 0.001308 * r ^ 2 + 2 * 0.189269 * r + 1.432788) r := by
    have h := (((hasDerivAt_id' r).const_mul (0.001308 : ℝ)).add_const 0.189269).mul (hasDerivAt_id' r)
    have h2 := (h.add_const 1.432788).mul (hasDerivAt_id' r)
    refine (h2.add_const 1).congr_deriv ?_
    simp only [Pi.mul_apply]
    ring
  have h := (hasDerivAt_id' r).sub (hN.div hD hne)
  refine h.congr_deriv ?_
  unfold devV
  field_simp
  ring

/-- The derivative dominates `r` times the Mills ratio a little to the right of the deviate. -/
theorem dev_up {r : ℝ} (h1 : 1.177 ≤ r) (h2 : r ≤ 5.26) :
    r * normalTail (dev r + 0.005) ≤ phi (dev r + 0.005) * (devV r / devD r ^ 2) := by
  have hr : 0 ≤ r := by linarith
  have hD := devD_pos hr
  obtain ⟨x, ex⟩ : ∃ x, x = dev r + 0.005 := ⟨_, rfl⟩
  have hx1 : -0.01 ≤ x := by
    have := dev_mono (by norm_num) h1
    have b : (-0.001 : ℝ) ≤ dev 1.177 := by unfold dev; norm_num
    rw [ex]; linarith
  rw [← ex]
  have hp := phi_pos x
  have exD : x * devD r = (r + 0.005) * devD r - devN r := by
    rw [ex, dev_eq]; field_simp; ring
  rcases le_total r 3.6 with h | h
  · have hx3 : x ≤ 3 := by
      have := dev_mono hr h
      have b : dev 3.6 ≤ 2.99 := by unfold dev; norm_num
      rw [ex]; linarith
    have c := certG_up (r := r) (by linarith) (by linarith)
    have hW : ((4.317008 + 1 / 200 + r) * devD r - devN r) = (x + 4.317008) * devD r := by linarith
    rw [hW] at c
    have t := (tail_hastings hx1 hx3).2
    obtain ⟨t0, et⟩ : ∃ t0, t0 = 4.317008 / (x + 4.317008) := ⟨_, rfl⟩
    rw [← et] at t
    have hxp : 0 < x + 4.317008 := by linarith
    have key : (1 + 3e-4) * r * hastings t0 ≤ devV r / devD r ^ 2 := by
      rw [le_div_iff₀ (by positivity)]
      have hm : 0 < ((x + 4.317008) * devD r) ^ 5 := by positivity
      refine le_of_mul_le_mul_right ?_ hm
      refine le_trans (le_of_eq ?_) c
      have e0 : t0 * (x + 4.317008) = 4.317008 := by rw [et]; field_simp
      have e1 : ∀ i : ℕ, i ≤ 5 → t0 ^ i * (x + 4.317008) ^ 5 = 4.317008 ^ i * (x + 4.317008) ^ (5 - i) := by
        intro i hi
        generalize x + 4.317008 = y at *
        rw [← e0, mul_pow, mul_assoc, ← pow_add]; congr 2; omega
      have f1 := e1 1 (by norm_num)
      have f2 := e1 2 (by norm_num)
      have f3 := e1 3 (by norm_num)
      have f4 := e1 4 (by norm_num)
      have f5 := e1 5 (by norm_num)
      norm_num only at f1 f2 f3 f4 f5
      unfold hastings
      linear_combination ((1 + 3e-4) * r * devD r ^ 7) * (0.319381530 * f1 - 0.356563782 * f2 + 1.781477937 * f3 -
        1.821255987 * f4 + 1.330274429 * f5)
    calc r * normalTail x ≤ r * ((1 + 3e-4) * (phi x * hastings t0)) := mul_le_mul_of_nonneg_left t hr
      _ = phi x * ((1 + 3e-4) * r * hastings t0) := by ring
      _ ≤ _ := mul_le_mul_of_nonneg_left key hp.le
  · have hx2 : 1 ≤ x := by
      have := dev_mono (by norm_num) h
      have b : 2 ≤ dev 3.6 := by unfold dev; norm_num
      rw [ex]; linarith
    have c := certC_up (r := r) (by linarith) (by linarith)
    have hY : ((r + 1 / 200) * devD r - devN r) = x * devD r := by linarith
    rw [hY] at c
    have t := tail_cfrac_upper hx2
    have hden : 0 < 15 * x + 10 * x ^ 3 + x ^ 5 := by positivity
    have key : r * ((8 + 9 * x ^ 2 + x ^ 4) / (15 * x + 10 * x ^ 3 + x ^ 5)) ≤ devV r / devD r ^ 2 := by
      rw [← mul_div_assoc, div_le_div_iff₀ hden (by positivity)]
      have hm : 0 < devD r ^ 5 := by positivity
      refine le_of_mul_le_mul_right ?_ hm
      linarith
    calc r * normalTail x ≤ r * (phi x * _) := mul_le_mul_of_nonneg_left t hr
      _ = phi x * (r * ((8 + 9 * x ^ 2 + x ^ 4) / (15 * x + 10 * x ^ 3 + x ^ 5))) := by ring
      _ ≤ _ := mul_le_mul_of_nonneg_left key hp.le

theorem dev_lo {r : ℝ} (h1 : 1.177 ≤ r) (h2 : r ≤ 5.26) :
    phi (dev r - 0.005) * (devV r / devD r ^ 2) ≤ r * normalTail (dev r - 0.005) := by
  have hr : 0 ≤ r := by linarith
  have hD := devD_pos hr
  obtain ⟨x, ex⟩ : ∃ x, x = dev r - 0.005 := ⟨_, rfl⟩
  have hx1 : -0.01 ≤ x := by
    have := dev_mono (by norm_num) h1
    have b : (-0.001 : ℝ) ≤ dev 1.177 := by unfold dev; norm_num
    rw [ex]; linarith
  rw [← ex]
  have hp := phi_pos x
  have exD : x * devD r = (r - 0.005) * devD r - devN r := by
    rw [ex, dev_eq]; field_simp; ring
  rcases le_total r 3.6 with h | h
  · have hx3 : x ≤ 3 := by
      have := dev_mono hr h
      have b : dev 3.6 ≤ 2.99 := by unfold dev; norm_num
      rw [ex]; linarith
    have c := certG_lo (r := r) (by linarith) (by linarith)
    have hW : ((4.317008 - 1 / 200 + r) * devD r - devN r) = (x + 4.317008) * devD r := by linarith
    rw [hW] at c
    have t := (tail_hastings hx1 hx3).1
    obtain ⟨t0, et⟩ : ∃ t0, t0 = 4.317008 / (x + 4.317008) := ⟨_, rfl⟩
    rw [← et] at t
    have hxp : 0 < x + 4.317008 := by linarith
    have key : devV r / devD r ^ 2 ≤ (1 - 3e-4) * r * hastings t0 := by
      rw [div_le_iff₀ (by positivity)]
      have hm : 0 < ((x + 4.317008) * devD r) ^ 5 := by positivity
      refine le_of_mul_le_mul_right ?_ hm
      refine le_trans c (le_of_eq ?_)
      have e0 : t0 * (x + 4.317008) = 4.317008 := by rw [et]; field_simp
      have e1 : ∀ i : ℕ, i ≤ 5 → t0 ^ i * (x + 4.317008) ^ 5 = 4.317008 ^ i * (x + 4.317008) ^ (5 - i) := by
        intro i hi
        generalize x + 4.317008 = y at *
        rw [← e0, mul_pow, mul_assoc, ← pow_add]; congr 2; omega
      have f1 := e1 1 (by norm_num)
      have f2 := e1 2 (by norm_num)
      have f3 := e1 3 (by norm_num)
      have f4 := e1 4 (by norm_num)
      have f5 := e1 5 (by norm_num)
      norm_num only at f1 f2 f3 f4 f5
      unfold hastings
      linear_combination (-((1 - 3e-4) * r * devD r ^ 7)) * (0.319381530 * f1 - 0.356563782 * f2 + 1.781477937 * f3 -
        1.821255987 * f4 + 1.330274429 * f5)
    calc _ ≤ phi x * ((1 - 3e-4) * r * hastings t0) := mul_le_mul_of_nonneg_left key hp.le
      _ = r * ((1 - 3e-4) * (phi x * hastings t0)) := by ring
      _ ≤ r * normalTail x := mul_le_mul_of_nonneg_left t hr
  · have hx2 : 1 ≤ x := by
      have := dev_mono (by norm_num) h
      have b : 2 ≤ dev 3.6 := by unfold dev; norm_num
      rw [ex]; linarith
    have c := certC_lo (r := r) (by linarith) (by linarith)
    have hY : ((r - 1 / 200) * devD r - devN r) = x * devD r := by linarith
    rw [hY] at c
    have t := tail_cfrac_lower hx2
    have hden : 0 < 15 + 45 * x ^ 2 + 15 * x ^ 4 + x ^ 6 := by positivity
    have key : devV r / devD r ^ 2 ≤ r * ((33 * x + 14 * x ^ 3 + x ^ 5) / (15 + 45 * x ^ 2 + 15 * x ^ 4 + x ^ 6)) := by
      rw [← mul_div_assoc, div_le_div_iff₀ (by positivity) hden]
      have hm : 0 < devD r ^ 6 := by positivity
      refine le_of_mul_le_mul_right ?_ hm
      linarith
    calc _ ≤ phi x * (r * ((33 * x + 14 * x ^ 3 + x ^ 5) / (15 + 45 * x ^ 2 + 15 * x ^ 4 + x ^ 6))) :=
          mul_le_mul_of_nonneg_left key hp.le
      _ = r * (phi x * _) := by ring
      _ ≤ r * normalTail x := mul_le_mul_of_nonneg_left t hr

/-! ### The deviate brackets the exact one -/

theorem bracket_hasDeriv (s : ℝ) {r : ℝ} (hr : 0 ≤ r) :
    HasDerivAt (fun u => normalTail (dev u + s) * Real.exp (u ^ 2 / 2))
      (Real.exp (r ^ 2 / 2) * (r * normalTail (dev r + s) - phi (dev r + s) * (devV r / devD r ^ 2))) r := by
  have h1 := (normalTail_hasDeriv (dev r + s)).comp r ((dev_hasDeriv hr).add_const s)
  have h2 : HasDerivAt (fun u : ℝ => Real.exp (u ^ 2 / 2)) (Real.exp (r ^ 2 / 2) * r) r := by
    have := ((hasDerivAt_pow 2 r).div_const 2).exp
    refine this.congr_deriv ?_
    norm_num
  refine (h1.mul h2).congr_deriv ?_
  simp only [Function.comp]
  ring

theorem bracket_up {r : ℝ} (h1 : √(2 * Real.log 2) ≤ r) (h2 : r ≤ 5.26) :
    normalTail (dev r + 0.005) ≤ Real.exp (-r ^ 2 / 2) := by
  have l1 := Real.log_two_gt_d9
  have h0 : 1.177 ≤ √(2 * Real.log 2) := by
    apply Real.le_sqrt_of_sq_le; norm_num at *; linarith
  have hanti : AntitoneOn (fun u => normalTail (dev u + 0.005) * Real.exp (u ^ 2 / 2)) (Set.Icc (√(2 * Real.log 2)) 5.26) := by
    apply antitoneOn_of_deriv_nonpos (convex_Icc _ _)
    · exact fun x hx => (bracket_hasDeriv 0.005 (by linarith [hx.1])).continuousAt.continuousWithinAt
    · intro x hx
      rw [interior_Icc] at hx
      exact (bracket_hasDeriv 0.005 (by linarith [hx.1])).differentiableAt.differentiableWithinAt
    · intro x hx
      rw [interior_Icc] at hx
      rw [(bracket_hasDeriv 0.005 (by linarith [hx.1])).deriv]
      have := dev_up (r := x) (by linarith [hx.1]) hx.2.le
      exact mul_nonpos_of_nonneg_of_nonpos (Real.exp_pos _).le (by linarith)
  have h := hanti (Set.left_mem_Icc.2 (h1.trans h2)) ⟨h1, h2⟩ h1
  dsimp only at h
  have e0 : Real.exp (√(2 * Real.log 2) ^ 2 / 2) = 2 := by
    rw [Real.sq_sqrt (by linarith)]
    rw [show 2 * Real.log 2 / 2 = Real.log 2 by ring, Real.exp_log (by norm_num)]
  have hd := devt_half
  have ed : devt (1 / 2) = dev (√(2 * Real.log 2)) := by
    unfold devt; rw [one_div, Real.log_inv]; congr 2; ring
  rw [ed, abs_lt] at hd
  have hs : normalTail (dev (√(2 * Real.log 2)) + 0.005) ≤ 1 / 2 := by
    rw [← normalTail_zero]; apply normalTail_anti; linarith [hd.1]
  rw [e0] at h
  have hpos := Real.exp_pos (r ^ 2 / 2)
  have ee : Real.exp (-r ^ 2 / 2) = (Real.exp (r ^ 2 / 2))⁻¹ := by rw [← Real.exp_neg]; congr 1; ring
  rw [ee, ← one_div, le_div_iff₀ hpos]
  linarith

theorem bracket_lo {r : ℝ} (h1 : √(2 * Real.log 2) ≤ r) (h2 : r ≤ 5.26) :
    Real.exp (-r ^ 2 / 2) ≤ normalTail (dev r - 0.005) := by
  have l1 := Real.log_two_gt_d9
  have h0 : 1.177 ≤ √(2 * Real.log 2) := by
    apply Real.le_sqrt_of_sq_le; norm_num at *; linarith
  have hmono : MonotoneOn (fun u => normalTail (dev u + -0.005) * Real.exp (u ^ 2 / 2)) (Set.Icc (√(2 * Real.log 2)) 5.26) := by
    apply monotoneOn_of_deriv_nonneg (convex_Icc _ _)
    · exact fun x hx => (bracket_hasDeriv (-0.005) (by linarith [hx.1])).continuousAt.continuousWithinAt
    · intro x hx
      rw [interior_Icc] at hx
      exact (bracket_hasDeriv (-0.005) (by linarith [hx.1])).differentiableAt.differentiableWithinAt
    · intro x hx
      rw [interior_Icc] at hx
      rw [(bracket_hasDeriv (-0.005) (by linarith [hx.1])).deriv]
      have := dev_lo (r := x) (by linarith [hx.1]) hx.2.le
      rw [sub_eq_add_neg] at this
      exact mul_nonneg (Real.exp_pos _).le (by linarith)
  have h := hmono (Set.left_mem_Icc.2 (h1.trans h2)) ⟨h1, h2⟩ h1
  dsimp only at h
  have e0 : Real.exp (√(2 * Real.log 2) ^ 2 / 2) = 2 := by
    rw [Real.sq_sqrt (by linarith)]
    rw [show 2 * Real.log 2 / 2 = Real.log 2 by ring, Real.exp_log (by norm_num)]
  have hd := devt_half
  have ed : devt (1 / 2) = dev (√(2 * Real.log 2)) := by
    unfold devt; rw [one_div, Real.log_inv]; congr 2; ring
  rw [ed, abs_lt] at hd
  have hs : 1 / 2 ≤ normalTail (dev (√(2 * Real.log 2)) + -0.005) := by
    rw [← normalTail_zero]; apply normalTail_anti; linarith [hd.2]
  rw [e0] at h
  have hpos := Real.exp_pos (r ^ 2 / 2)
  have ee : Real.exp (-r ^ 2 / 2) = (Real.exp (r ^ 2 / 2))⁻¹ := by rw [← Real.exp_neg]; congr 1; ring
  rw [ee, ← one_div, div_le_iff₀ hpos, sub_eq_add_neg]
  linarith

theorem normalTail_strictAnti : StrictAnti normalTail := by
  apply strictAnti_of_deriv_neg
  intro x
  rw [(normalTail_hasDeriv x).deriv]
  linarith [phi_pos x]

set_option exponentiation.threshold 600 in
theorem log_million : Real.log 1000000 ≤ 13.83 := by
  refine (log_upper (y := 1000000) 15 299 (by norm_num) (by norm_num) (by norm_num)).trans ?_
  norm_num

/-- The deviate of a tail probability between `1e-6` and one half. -/
theorem devt_near {q : ℝ} (h1 : 0.000001 ≤ q) (h2 : q ≤ 1 / 2) {x : ℝ} (hx : normalTail x = q) :
    |devt q - x| ≤ 0.005 := by
  have hq : 0 < q := lt_of_lt_of_le (by norm_num) h1
  have l1 := Real.log_two_gt_d9
  have hlog : Real.log q ≤ -Real.log 2 := by
    rw [← Real.log_inv]; exact Real.log_le_log hq (by linarith)
  have r1 : √(2 * Real.log 2) ≤ √(-2 * Real.log q) := Real.sqrt_le_sqrt (by linarith)
  have hlo : -Real.log 1000000 ≤ Real.log q := by
    rw [← Real.log_inv]; exact Real.log_le_log (by norm_num) (by norm_num at *; linarith)
  have r2 : √(-2 * Real.log q) ≤ 5.26 := by
    rw [Real.sqrt_le_iff]; have := log_million; norm_num at *; linarith
  have hexp : Real.exp (-√(-2 * Real.log q) ^ 2 / 2) = q := by
    rw [Real.sq_sqrt (by linarith), show -(-2 * Real.log q) / 2 = Real.log q by ring, Real.exp_log hq]
  have u := bracket_up r1 r2
  have l := bracket_lo r1 r2
  rw [hexp, ← hx] at u l
  have u' := normalTail_strictAnti.le_iff_ge.1 u
  have l' := normalTail_strictAnti.le_iff_ge.1 l
  unfold devt
  rw [hx] at u' l'
  rw [abs_le]; constructor <;> linarith

end Itm
