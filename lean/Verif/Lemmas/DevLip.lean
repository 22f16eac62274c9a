import Verif.Lemmas.VarCoefRound

/-! The quantile formula moves little when the coefficients move little. -/

namespace Itm.Props
open Itm Spec
variable {α : Type} [PyNum α] {R : Rounding α}

/-- The root under the deviation, as a length. -/
noncomputable def lenR (c t s w T L : ℝ) : ℝ := √(t ^ 2 + s ^ 2 + w ^ 2 + T ^ 2 / (7.8 + c ^ 2) + L ^ 2 / (24 + c ^ 2))

theorem slot_lip {K c x y : ℝ} (hK : 0 ≤ K) (hc : |c| ≤ 10) : |c * √(K + y ^ 2) - c * √(K + x ^ 2)| ≤ 10 * |y - x| := by
  have h := conf_lip (K := K) (c := 1) (m := 1) (x := x) (y := y) hK (by norm_num) (by norm_num)
  simp only [one_mul] at h
  rw [← mul_sub, abs_mul]
  exact mul_le_mul hc h (abs_nonneg _) (by norm_num)

theorem lenR_lip {c : ℝ} (hc : |c| ≤ 10) (t s w T L t' s' w' T' L' : ℝ) :
    |c * lenR c t s w T L - c * lenR c t' s' w' T' L'| ≤ 10 * |t - t'| + 10 * |s - s'| + 10 * |w - w'| + |T - T'| + |L - L'| := by
  have p1 : 0 < 7.8 + c ^ 2 := by positivity
  have p2 : 0 < 24 + c ^ 2 := by positivity
  have a1 : |c * lenR c t s w T L - c * lenR c t' s w T L| ≤ 10 * |t - t'| := by
    have := slot_lip (K := s ^ 2 + w ^ 2 + T ^ 2 / (7.8 + c ^ 2) + L ^ 2 / (24 + c ^ 2)) (x := t') (y := t) (by positivity) hc
    unfold lenR
    convert this using 5 <;> ring_nf
  have a2 : |c * lenR c t' s w T L - c * lenR c t' s' w T L| ≤ 10 * |s - s'| := by
    have := slot_lip (K := t' ^ 2 + w ^ 2 + T ^ 2 / (7.8 + c ^ 2) + L ^ 2 / (24 + c ^ 2)) (x := s') (y := s) (by positivity) hc
    unfold lenR
    convert this using 5 <;> ring_nf
  have a3 : |c * lenR c t' s' w T L - c * lenR c t' s' w' T L| ≤ 10 * |w - w'| := by
    have := slot_lip (K := t' ^ 2 + s' ^ 2 + T ^ 2 / (7.8 + c ^ 2) + L ^ 2 / (24 + c ^ 2)) (x := w') (y := w) (by positivity) hc
    unfold lenR
    convert this using 5 <;> ring_nf
  have a4 : |c * lenR c t' s' w' T L - c * lenR c t' s' w' T' L| ≤ |T - T'| := by
    have := conf_lip (K := t' ^ 2 + s' ^ 2 + w' ^ 2 + L ^ 2 / (24 + c ^ 2)) (c := c) (m := 1 / (7.8 + c ^ 2)) (x := T') (y := T)
      (by positivity) (by positivity) (wt_le_one c 7.8 (by norm_num))
    unfold lenR
    convert this using 5 <;> ring_nf
  have a5 : |c * lenR c t' s' w' T' L - c * lenR c t' s' w' T' L'| ≤ |L - L'| := by
    have := conf_lip (K := t' ^ 2 + s' ^ 2 + w' ^ 2 + T' ^ 2 / (7.8 + c ^ 2)) (c := c) (m := 1 / (24 + c ^ 2)) (x := L') (y := L)
      (by positivity) (by positivity) (wt_le_one c 24 (by norm_num))
    unfold lenR
    convert this using 5 <;> ring_nf
  have b1 := abs_sub_le (c * lenR c t s w T L) (c * lenR c t' s w T L) (c * lenR c t' s' w' T' L')
  have b2 := abs_sub_le (c * lenR c t' s w T L) (c * lenR c t' s' w T L) (c * lenR c t' s' w' T' L')
  have b3 := abs_sub_le (c * lenR c t' s' w T L) (c * lenR c t' s' w' T L) (c * lenR c t' s' w' T' L')
  have b4 := abs_sub_le (c * lenR c t' s' w' T L) (c * lenR c t' s' w' T' L) (c * lenR c t' s' w' T' L')
  linarith

/-- The time deviation moves little, also across the seam at `zd`. -/
theorem sgtR_close {zd zd' : ℝ} {v v' : VarC ℝ} (hz : 1 ≤ zd) (hp : |v.sgtp| ≤ 1000) (h : VarClose zd v zd' v') (g : VarGood zd' v') (z : ℝ) :
    |sgtR zd v z - sgtR zd' v' z| ≤ 7e-8 := by
  have hzd := abs_le.1 h.zd
  have hsp := abs_le.1 h.sgtp
  have hp' := abs_le.1 hp
  have hg := g.tgtd
  have hgd := g.sgtd
  have hgp := g.sgtp
  have hgc := g.csd
  have hz' : 0.9 ≤ zd' := by norm_num at *; linarith [hzd.2]
  have hspan : |v'.sgtp - v'.sgtd| ≤ 1100 := by
    rw [abs_le]; constructor <;> norm_num at * <;> linarith [hsp.1, hsp.2, hp'.1, hp'.2]
  unfold sgtR
  by_cases h0 : z < 0
  · rw [if_pos h0, if_pos h0]
    exact h.sgtm.trans (by norm_num)
  rw [if_neg h0, if_neg h0]
  by_cases h1 : z ≤ zd <;> by_cases h2 : z ≤ zd'
  · rw [if_pos h1, if_pos h2]
    exact h.sgtp.trans (by norm_num)
  · rw [if_pos h1, if_neg h2]
    push Not at h2
    have hzp : 0 < z := by norm_num at *; linarith
    rw [show v.sgtp - (v'.sgtd + v'.tgtd / z) = (v.sgtp - v'.sgtp) + (v'.sgtp - v'.sgtd) * ((z - zd') / z) by rw [hg]; field_simp; ring]
    refine (abs_add_le _ _).trans ?_
    rw [abs_mul]
    have h3 : |(z - zd') / z| ≤ 4e-14 := by
      rw [abs_of_nonneg (div_nonneg (by linarith) hzp.le), div_le_iff₀ hzp]
      norm_num at *
      linarith [hzd.2]
    have := mul_le_mul hspan h3 (abs_nonneg _) (by norm_num)
    have := h.sgtp
    generalize |v'.sgtp - v'.sgtd| * |(z - zd') / z| = w at *
    norm_num at *
    linarith
  · rw [if_neg h1, if_pos h2]
    push Not at h1
    have hzp : 0 < z := by norm_num at *; linarith
    rw [show v.sgtd + v.tgtd / z - v'.sgtp = (v.sgtd - v'.sgtd) + (v.tgtd - v'.tgtd) / z + (v'.sgtp - v'.sgtd) * ((zd' - z) / z) by
      rw [hg]; field_simp; ring]
    refine (abs_add_le _ _).trans ((add_le_add (abs_add_le _ _) le_rfl).trans ?_)
    rw [abs_mul]
    have h3 : |(zd' - z) / z| ≤ 4e-14 := by
      rw [abs_of_nonneg (div_nonneg (by linarith) hzp.le), div_le_iff₀ hzp]
      norm_num at *
      linarith [hzd.1]
    have h4 : |(v.tgtd - v'.tgtd) / z| ≤ 3.6e-8 := by
      rw [abs_div, abs_of_pos hzp, div_le_iff₀ hzp]
      refine h.tgtd.trans ?_
      norm_num at *
      linarith [hzd.1]
    have := mul_le_mul hspan h3 (abs_nonneg _) (by norm_num)
    have := h.sgtd
    generalize |v'.sgtp - v'.sgtd| * |(zd' - z) / z| = w at *
    norm_num at *
    linarith
  · rw [if_neg h1, if_neg h2]
    push Not at h1 h2
    have hzp : 0 < z := by norm_num at *; linarith
    rw [show v.sgtd + v.tgtd / z - (v'.sgtd + v'.tgtd / z) = (v.sgtd - v'.sgtd) + (v.tgtd - v'.tgtd) / z by ring]
    refine (abs_add_le _ _).trans ?_
    have h4 : |(v.tgtd - v'.tgtd) / z| ≤ 3.5e-8 := by
      rw [abs_div, abs_of_pos hzp, div_le_iff₀ hzp]
      refine h.tgtd.trans ?_
      norm_num at *
      linarith
    have := h.sgtd
    norm_num at *
    linarith

theorem vs0_len {v : VarC ℝ} (h : 0 ≤ v.vs0) (T L c : ℝ) : vsR v T L c = √v.vs0 ^ 2 + T ^ 2 / (7.8 + c ^ 2) + L ^ 2 / (24 + c ^ 2) := by
  rw [Real.sq_sqrt h]; rfl

/-- The deviation moves by at most `3e-6` dB. -/
theorem devR_close {zd zd' : ℝ} {v v' : VarC ℝ} (hz : 1 ≤ zd) (hp : |v.sgtp| ≤ 1000) (hv : 0 ≤ v.vs0) (h : VarClose zd v zd' v')
    (g : VarGood zd' v') (kdv : ℤ) {zt zl zc : ℝ} (ht : |zt| ≤ 10) (hl : |zl| ≤ 10) (hc : |zc| ≤ 10) :
    |devR kdv zd v zt zl zc - devR kdv zd' v' zt zl zc| ≤ 3e-6 := by
  have hS : ∀ z, |sgtR zd v z - sgtR zd' v' z| ≤ 7e-8 := sgtR_close hz hp h g
  have hT : ∀ z : ℝ, |z| ≤ 10 → |tdev zd v z - tdev zd' v' z| ≤ 7e-7 := by
    intro z hz
    unfold tdev
    rw [← sub_mul, abs_mul]
    calc _ ≤ (7e-8 : ℝ) * 10 := mul_le_mul (hS z) hz (abs_nonneg _) (by norm_num)
      _ = 7e-7 := by norm_num
  have hL : ∀ z : ℝ, |z| ≤ 10 → |v.sgl * z - v'.sgl * z| ≤ 3e-7 := by
    intro z hz
    rw [← sub_mul, abs_mul]
    calc _ ≤ (3e-8 : ℝ) * 10 := mul_le_mul h.sgl hz (abs_nonneg _) (by norm_num)
      _ = 3e-7 := by norm_num
  have hw := h.vs0
  have hs := h.sgl
  have hv' := g.vs0
  unfold devR
  by_cases h0 : kdv = 0
  · simp only [if_pos h0]
    have := lenR_lip hc (sgtR zd v zc) v.sgl (√v.vs0) (tdev zd v zc) (v.sgl * zc) (sgtR zd' v' zc) v'.sgl (√v'.vs0) (tdev zd' v' zc) (v'.sgl * zc)
    rw [vs0_len hv, vs0_len hv']
    unfold lenR at this
    simp only [← add_assoc]
    refine this.trans ?_
    have a1 := hS zc
    have a2 := hT zc hc
    have a3 := hL zc hc
    clear this
    norm_num at *
    linarith
  · simp only [if_neg h0]
    by_cases h1 : kdv = 1
    · simp only [if_pos h1]
      have := lenR_lip hc 0 v.sgl (√v.vs0) (tdev zd v zt) (v.sgl * zc) 0 v'.sgl (√v'.vs0) (tdev zd' v' zt) (v'.sgl * zc)
      rw [vs0_len hv, vs0_len hv']
      unfold lenR at this
      simp only [ne_eq, OfNat.ofNat_ne_zero, not_false_eq_true, zero_pow, zero_add, sub_zero, abs_zero, mul_zero] at this
      simp only [← add_assoc]
      rw [add_sub_add_comm]
      refine (abs_add_le _ _).trans ((add_le_add le_rfl this).trans ?_)
      have a2 := hT zt ht
      have a3 := hL zc hc
      clear this
      norm_num at *
      linarith
    · simp only [if_neg h1]
      have key : ∀ T L T' L' : ℝ, |T - T'| ≤ 7e-7 → |L - L'| ≤ 3e-7 →
          |zc * √(vsR v T L zc) - zc * √(vsR v' T' L' zc)| ≤ 1.3e-6 := by
        intro T L T' L' e1 e2
        have := lenR_lip hc 0 0 (√v.vs0) T L 0 0 (√v'.vs0) T' L'
        unfold lenR at this
        simp only [ne_eq, OfNat.ofNat_ne_zero, not_false_eq_true, zero_pow, zero_add, sub_zero, abs_zero, mul_zero] at this
        rw [vs0_len hv, vs0_len hv']
        refine this.trans ?_
        clear this
        norm_num at *
        linarith
      by_cases h2 : kdv = 2
      · simp only [if_pos h2]
        rw [add_sub_add_comm]
        have k := key _ _ _ _ (hT zt ht) (hL zt ht)
        have r : |zt * √(sgtR zd v zt ^ 2 + v.sgl ^ 2) - zt * √(sgtR zd' v' zt ^ 2 + v'.sgl ^ 2)| ≤ 1e-6 := by
          have b1 := slot_lip (K := v.sgl ^ 2) (c := zt) (x := sgtR zd' v' zt) (y := sgtR zd v zt) (by positivity) ht
          have b2 := slot_lip (K := sgtR zd' v' zt ^ 2) (c := zt) (x := v'.sgl) (y := v.sgl) (by positivity) ht
          rw [add_comm (v.sgl ^ 2), add_comm (v.sgl ^ 2)] at b1
          have b3 := abs_sub_le (zt * √(sgtR zd v zt ^ 2 + v.sgl ^ 2)) (zt * √(sgtR zd' v' zt ^ 2 + v.sgl ^ 2))
            (zt * √(sgtR zd' v' zt ^ 2 + v'.sgl ^ 2))
          have a1 := hS zt
          clear key k
          norm_num at *
          linarith
        refine (abs_add_le _ _).trans ((add_le_add r k).trans (by norm_num))
      · simp only [if_neg h2]
        have k := key _ _ _ _ (hT zt ht) (hL zl hl)
        rw [add_sub_add_comm, add_sub_add_comm]
        refine (abs_add_le _ _).trans ((add_le_add ((abs_add_le _ _).trans (add_le_add (hT zt ht) (hL zl hl))) k).trans (by norm_num))

end Itm.Props
