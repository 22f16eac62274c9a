import Verif.Lemmas.DocsLink

/-! An upper bound of the reference attenuation of the documented link. -/

namespace Itm.Spec
open Itm

/-- The coefficients of the fit are not negative, unless the line keeps the diffraction slope. -/
theorem fitCoef_sign {L : Link} (hd : ∀ d0 d1 : ℝ, (d0, d1) = fitDistances L.wn L.he₀ L.he₁ L.dla (L.diffLine 0) L.md → 0 < d0 ∧ d0 ≤ d1 ∧ d1 < L.dlsa) :
    (0 ≤ L.fitCoef.1 ∨ L.fitCoef.1 = L.md) ∧ 0 ≤ L.fitCoef.2 := by
  unfold Link.fitCoef
  obtain ⟨⟨d0, d1⟩, e⟩ : ∃ x, x = fitDistances L.wn L.he₀ L.he₁ L.dla (L.diffLine 0) L.md := ⟨_, rfl⟩
  rw [← e]
  obtain ⟨p0, p1, p2⟩ := hd d0 d1 e
  dsimp only
  generalize L.twoRayMix d1 = a1
  generalize L.twoRayMix d0 = a0
  generalize L.diffLine L.dlsa = a2
  have hs : (0 ≤ (if a2 ≤ a1 then (L.md, (0 : ℝ)) else ((a2 - a1) / (L.dlsa - d1), 0)).1 ∨
      (if a2 ≤ a1 then (L.md, (0 : ℝ)) else ((a2 - a1) / (L.dlsa - d1), 0)).1 = L.md) ∧
      0 ≤ (if a2 ≤ a1 then (L.md, (0 : ℝ)) else ((a2 - a1) / (L.dlsa - d1), 0)).2 := by
    split_ifs with c
    · exact ⟨.inr rfl, le_rfl⟩
    · exact ⟨.inl (div_nonneg (by linarith) (by linarith)), le_rfl⟩
  split_ifs at hs ⊢ with c1 c2 c3 c4 <;> try exact hs
  all_goals first
    | exact ⟨.inl c3, le_max_left _ _⟩
    | exact ⟨.inr rfl, le_rfl⟩
    | refine ⟨.inl le_rfl, div_nonneg (by linarith) (Real.log_nonneg ?_)⟩
      rw [one_le_div p0]; linarith

namespace DocsLink
variable {L : Link} (h : DocsLink L)
include h

theorem rounded3_le : roundedEarth L.wn (1.3787 * L.xae) (L.tha + (L.dla + 1.3787 * L.xae) * L.gme) L.zInv L.xht L.aht ≤ 60 := by
  obtain ⟨z1, z2⟩ := h.zInv_bounds
  obtain ⟨q1, q2⟩ := h.xae_bounds
  obtain ⟨x1, x2⟩ := h.x0_bounds
  obtain ⟨y1, y2, -, -⟩ := h.x1_bounds
  obtain ⟨ha, -⟩ := h.aht_bounds
  obtain ⟨s, es⟩ : ∃ s, s = 1.3787 * L.xae := ⟨_, rfl⟩
  have s1 : 61076 ≤ s := by rw [es]; norm_num at *; linarith
  have s2 : s ≤ 61201 := by rw [es]; norm_num at *; linarith
  rw [← es]
  clear es
  obtain ⟨t1, t2⟩ := h.th_bounds s1 s2 (by norm_num)
  generalize L.tha + (L.dla + s) * L.gme = t at *
  have t1 : 0.012135 ≤ t := le_trans (by norm_num) t1
  have t2 : t ≤ 0.012228 := le_trans t2 (by norm_num)
  have ht : 0 < t := lt_of_lt_of_le (by norm_num) t1
  have hb : 163.1 ≤ (s / t * L.wn) ^ (1 / 3 : ℝ) ∧ (s / t * L.wn) ^ (1 / 3 : ℝ) ≤ 163.8 := by
    rw [h.wn]
    refine third_bounds (by norm_num) (by norm_num) ?_ ?_
    · rw [div_mul_eq_mul_div, le_div_iff₀ ht]; norm_num at *; linarith
    · rw [div_mul_eq_mul_div, div_le_iff₀ ht]; norm_num at *; linarith
  have := arg_bounds (x := L.xht) ht rfl (by linarith [hb.1]) hb.1 hb.2 t1 t2 z1 z2 (by norm_num) (by norm_num)
  unfold roundedEarth
  generalize roundedArg L.wn s t L.zInv L.xht = y at *
  have hx : 466.3 ≤ L.xht ∧ L.xht ≤ 469.7 := by unfold Link.xht; constructor <;> norm_num at * <;> linarith
  have r1 : 946 ≤ y := by norm_num at *; linarith
  have r2 : y ≤ 955.5 := by norm_num at *; linarith
  have l := Real.log_le_log (by norm_num) r1
  have m := log_lower (y := 946) 9 88 (by norm_num) (by norm_num)
  generalize Real.log y = ly at *
  norm_num at *; linarith

theorem knife3_le : doubleKnife L.wn (1.3787 * L.xae) (L.tha + (L.dla + 1.3787 * L.xae) * L.gme) L.dl₀ L.dl₁ ≤ 21 := by
  obtain ⟨q1, q2⟩ := h.xae_bounds
  obtain ⟨s, es⟩ : ∃ s, s = 1.3787 * L.xae := ⟨_, rfl⟩
  have s1 : 61076 ≤ s := by rw [es]; norm_num at *; linarith
  have s2 : s ≤ 61201 := by rw [es]; norm_num at *; linarith
  rw [← es]
  clear es
  obtain ⟨t1, t2⟩ := h.th_bounds s1 s2 (by norm_num)
  generalize L.tha + (L.dla + s) * L.gme = t at *
  have t1 : 0.012135 ≤ t := le_trans (by norm_num) t1
  have t2 : t ≤ 0.012228 := le_trans t2 (by norm_num)
  unfold doubleKnife
  rw [h.wn, h.dl0, h.dl1]
  obtain ⟨u1, u2⟩ := v_bounds (k := 41.5 / 47.7) (a := 111 * (77800 / 156)) (lo := 0.294) (hi := 0.302) (by norm_num) (by norm_num) s1 s2 t1 t2 (by norm_num) (by norm_num)
    (by norm_num) (by norm_num)
  obtain ⟨w1, w2⟩ := v_bounds (k := 41.5 / 47.7) (a := 39 * (77800 / 156)) (lo := 0.149) (hi := 0.154) (by norm_num) (by norm_num) s1 s2 t1 t2 (by norm_num) (by norm_num)
    (by norm_num) (by norm_num)
  have k0 := knife_upper (c := 0.55) u1 u2 (by norm_num) (by norm_num) (by norm_num) (by norm_num)
  have k1 := knife_upper (c := 0.3925) w1 w2 (by norm_num) (by norm_num) (by norm_num) (by norm_num)
  norm_num at *; linarith

/-- Both ends of the diffraction line are moderate. -/
theorem diffraction_le : (-15 ≤ L.diffraction L.d3 ∧ L.diffraction L.d3 ≤ 75) ∧ (-15 ≤ L.diffraction L.d4 ∧ L.diffraction L.d4 ≤ 110) := by
  obtain ⟨q1, q2⟩ := h.xae_bounds
  have hx : 0 < L.xae := by linarith
  have e3 := h.d3
  have e4 : L.d4 = L.dla + 4.1361 * L.xae := by unfold Link.d4; rw [e3]; ring
  have hr3 := h.rounded3
  have hr3' := h.rounded3_le
  obtain ⟨hr4, hr4'⟩ := h.rounded4
  have hk3 := h.knife3
  have hk3' := h.knife3_le
  obtain ⟨hk4, hk4'⟩ := h.knife4
  have hdla := h.dla
  have hW := h.weight_bounds (d := L.d3) (d' := L.d4) (by rw [e3, hdla]; norm_num at *; linarith) (by rw [e3, e4]; linarith)
  have hW' := h.weight_bounds (d := L.d4) (d' := L.d4) (by rw [e4, hdla]; norm_num at *; linarith) le_rfl
  have hc : 0 ≤ clutter L.wn L.dh L.hg₀ L.hg₁ L.dlsa := by
    unfold clutter
    refine le_min (by norm_num) (mul_nonneg (by norm_num) (Real.log_nonneg ?_))
    have hw : 0 < L.wn := by rw [h.wn]; norm_num
    have : 0 ≤ 4.77e-4 * L.hg₀ * L.hg₁ * L.wn * terrainSigma (irregularity L.dh L.dlsa) := by
      have hi : 0 ≤ irregularity L.dh L.dlsa := by
        unfold irregularity
        have : Real.exp (-L.dlsa / 50000) ≤ 1 := Real.exp_le_one_iff.2 (by rw [div_nonpos_iff]; right; constructor <;> linarith [h.dlsa_bounds.1])
        exact mul_nonneg (by linarith) h.dh
      unfold terrainSigma
      rw [h.hg0, h.hg1]
      positivity
    linarith
  have hc' : clutter L.wn L.dh L.hg₀ L.hg₁ L.dlsa ≤ 15 := by unfold clutter; exact min_le_left _ _
  unfold Link.diffraction
  dsimp only at hW hW' ⊢
  rw [show L.d4 - L.dla = 4.1361 * L.xae by rw [e4]; ring, show L.d3 - L.dla = 1.3787 * L.xae by rw [e3]; ring]
  rw [← e3] at hr3 hk3 hr3' hk3'
  rw [← e4] at hr4 hr4' hk4 hk4'
  generalize clutter L.wn L.dh L.hg₀ L.hg₁ L.dlsa = C at *
  generalize diffWeight L.wn L.dh L.wd1 L.xd1 L.d3 = w at *
  generalize diffWeight L.wn L.dh L.wd1 L.xd1 L.d4 = w' at *
  generalize roundedEarth L.wn (1.3787 * L.xae) (L.tha + L.d3 * L.gme) L.zInv L.xht L.aht = A at *
  generalize roundedEarth L.wn (4.1361 * L.xae) (L.tha + L.d4 * L.gme) L.zInv L.xht L.aht = A' at *
  generalize doubleKnife L.wn (1.3787 * L.xae) (L.tha + L.d3 * L.gme) L.dl₀ L.dl₁ = B at *
  generalize doubleKnife L.wn (4.1361 * L.xae) (L.tha + L.d4 * L.gme) L.dl₀ L.dl₁ = B' at *
  obtain ⟨w0, w1, -⟩ := hW
  obtain ⟨w0', w1', -⟩ := hW'
  norm_num at hr3 hk3
  refine ⟨⟨?_, ?_⟩, ?_, ?_⟩
  · have := mul_nonneg w0 (by linarith : 0 ≤ A)
    have := mul_nonneg (by linarith : 0 ≤ 1 - w) (by linarith : 0 ≤ B)
    linarith
  · have := mul_le_mul_of_nonneg_left hr3' w0
    have := mul_le_mul_of_nonneg_left (hk3'.trans (by norm_num : (21 : ℝ) ≤ 60)) (by linarith : 0 ≤ 1 - w)
    linarith
  · have := mul_nonneg w0' (by linarith : 0 ≤ A')
    have := mul_nonneg (by linarith : 0 ≤ 1 - w') hk4'
    linarith
  · have := mul_le_mul_of_nonneg_left (hr4.trans (by norm_num : (92.5 : ℝ) ≤ 95)) w0'
    have := mul_le_mul_of_nonneg_left (hk4.trans (by norm_num : (30 : ℝ) ≤ 95)) (by linarith : 0 ≤ 1 - w')
    linarith

theorem reference_le : 0 ≤ L.reference 77800 ∧ L.reference 77800 ≤ 200 := by
  obtain ⟨s1, s2⟩ := h.dlsa_bounds
  obtain ⟨q1, q2⟩ := h.xae_bounds
  have e3 := h.d3
  have hdla := h.dla
  obtain ⟨⟨a1, a2⟩, b1, b2⟩ := h.diffraction_le
  refine ⟨le_max_left _ _, ?_⟩
  unfold Link.reference
  rw [if_pos ⟨by norm_num, by linarith⟩]
  refine max_le (by norm_num) ?_
  have e : L.d4 - L.d3 = 2.7574 * L.xae := by unfold Link.d4; ring
  have hp : 0 < 2.7574 * L.xae := by norm_num at *; linarith
  have m : |L.md| ≤ 125 / 120000 := by
    unfold Link.md
    rw [e, abs_div, abs_of_pos hp]
    refine div_le_div₀ (by norm_num) (by rw [abs_le]; constructor <;> linarith) (by norm_num) (by norm_num at *; linarith)
  have m' := abs_le.1 m
  have hl : L.diffLine L.dlsa ≤ 75 + 125 / 120000 * 55000 := by
    unfold Link.diffLine
    have k : L.md * (L.dlsa - L.d3) ≤ 125 / 120000 * 55000 := by
      have : L.md * (L.dlsa - L.d3) ≤ |L.md| * |L.dlsa - L.d3| := by rw [← abs_mul]; exact le_abs_self _
      refine this.trans (mul_le_mul m ?_ (abs_nonneg _) (by norm_num))
      rw [e3, hdla, abs_le]; constructor <;> norm_num at * <;> linarith
    linarith
  have ha := h.aed
  obtain ⟨c1, c2⟩ := fitCoef_sign (L := L) (by
    intro d0 d1 ed
    unfold fitDistances at ed
    rw [if_pos ha, Prod.mk.injEq] at ed
    obtain ⟨e0, e1⟩ := ed
    have hn : 0 < 1.908 * L.wn * L.he₀ * L.he₁ := by
      have := h.a1; have := h.b1
      have h0 : 0 < L.he₀ := by linarith
      have h1 : 0 < L.he₁ := by linarith
      rw [h.wn]; positivity
    have k1 : 0 < d0 := by rw [e0, hdla]; exact lt_min hn (by norm_num)
    have k2 : d0 ≤ L.dla / 2 := by rw [e0]; exact min_le_right _ _
    rw [← e0] at e1
    rw [hdla] at e1 k2
    refine ⟨k1, ?_, ?_⟩ <;> norm_num at * <;> linarith)
  unfold Link.sight
  have t2 : L.fitCoef.2 * Real.log (77800 / L.dlsa) ≤ 0 :=
    mul_nonpos_of_nonneg_of_nonpos c2 (Real.log_nonpos (by positivity) (by rw [div_le_one (by linarith)]; linarith))
  have t1 : L.fitCoef.1 * (77800 - L.dlsa) ≤ 10 := by
    rcases c1 with c | c
    · have := mul_nonpos_of_nonneg_of_nonpos c (by linarith : 77800 - L.dlsa ≤ 0)
      linarith
    · rw [c]
      have : L.md * (77800 - L.dlsa) ≤ |L.md| * |77800 - L.dlsa| := by rw [← abs_mul]; exact le_abs_self _
      have k : |L.md| * |77800 - L.dlsa| ≤ 125 / 120000 * 6000 := by
        refine mul_le_mul m ?_ (abs_nonneg _) (by norm_num)
        rw [abs_le]; constructor <;> linarith
      norm_num at *; linarith
  norm_num at *; linarith

end DocsLink
end Itm.Spec
