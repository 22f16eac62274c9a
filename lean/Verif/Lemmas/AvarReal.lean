import Verif.Lemmas.AvarState
import Verif.Lemmas.Basic
import Mathlib.Analysis.Calculus.Deriv.MeanValue
import Mathlib.Analysis.SpecialFunctions.Sqrt
import Mathlib.Tactic.FieldSimp
import Mathlib.Tactic.Positivity
import Mathlib.Tactic.Linarith

/-! `avar` over the reals: closed forms and the monotonicity of the deviation. -/

namespace Itm
open Real

/-- Standard deviation of time variability as a real function. -/
noncomputable def sgtR (zd : ℝ) (v : VarC ℝ) (zt : ℝ) : ℝ :=
  if zt < 0 then v.sgtm else if zt ≤ zd then v.sgtp else v.sgtd + v.tgtd / zt

/-- Time deviation in dB. -/
noncomputable def tdev (zd : ℝ) (v : VarC ℝ) (zt : ℝ) : ℝ := sgtR zd v zt * zt

/-- Situation variance. -/
noncomputable def vsR (v : VarC ℝ) (T L zc : ℝ) : ℝ :=
  v.vs0 + T ^ 2 / (7.8 + zc ^ 2) + L ^ 2 / (24 + zc ^ 2)

/-- Total deviation subtracted from the median. -/
noncomputable def devR (kdv : ℤ) (zd : ℝ) (v : VarC ℝ) (zt zl zc : ℝ) : ℝ :=
  if kdv = 0 then
    zc * √(sgtR zd v zc ^ 2 + v.sgl ^ 2 + vsR v (tdev zd v zc) (v.sgl * zc) zc)
  else if kdv = 1 then
    tdev zd v zt + zc * √(v.sgl ^ 2 + vsR v (tdev zd v zt) (v.sgl * zc) zc)
  else if kdv = 2 then
    zt * √(sgtR zd v zt ^ 2 + v.sgl ^ 2) + zc * √(vsR v (tdev zd v zt) (v.sgl * zt) zc)
  else
    tdev zd v zt + v.sgl * zl + zc * √(vsR v (tdev zd v zt) (v.sgl * zl) zc)

/-- What the cached coefficients of a prepared dictionary satisfy. -/
structure VarGood (zd : ℝ) (v : VarC ℝ) : Prop where
  zdp : 0 < zd
  sgtm : 0 ≤ v.sgtm
  sgtp : 0 ≤ v.sgtp
  sgtd : 0 ≤ v.sgtd
  csd : v.sgtd ≤ 2 * v.sgtp
  tgtd : v.tgtd = (v.sgtp - v.sgtd) * zd
  vs0 : 0 ≤ v.vs0

theorem sgtOf_ok {zd : ℝ} (hz : 0 ≤ zd) (v : VarC ℝ) (zt : ℝ) : sgtOf zd v zt = .ok (sgtR zd v zt) := by
  unfold sgtOf sgtR
  simp only [zero_lit]
  split_ifs with h1 h2
  · rfl
  · rfl
  · rw [pyDiv_ok (by linarith), ok_bind, pure_ok]

theorem vsR_nonneg {v : VarC ℝ} (h : 0 ≤ v.vs0) (T L zc : ℝ) : 0 ≤ vsR v T L zc := by
  unfold vsR; positivity

theorem vsOf_ok (v : VarC ℝ) (sgt zt zl zc : ℝ) : vsOf v sgt zt zl zc = .ok (vsR v (sgt * zt) (v.sgl * zl) zc) := by
  unfold vsOf vsR
  simp only [npow_real]
  have h1 : (7.8 : ℝ) + zc ^ 2 ≠ 0 := by positivity
  have h2 : (24.0 : ℝ) + zc ^ 2 ≠ 0 := by positivity
  rw [pyDiv_ok h1, ok_bind, pyDiv_ok h2, ok_bind, pure_ok]
  norm_num

theorem soften_ok (a : ℝ) : soften a = .ok (if a < 0 then a * (29 - a) / (29 - 10 * a) else a) := by
  unfold soften
  simp only [zero_lit]
  split_ifs with h
  · rw [pyDiv_ok (by norm_num; linarith)]; norm_num
  · rfl

/-- Softening as a real function. -/
noncomputable def softR (a : ℝ) : ℝ := if a < 0 then a * (29 - a) / (29 - 10 * a) else a

theorem avarQuantile_ok {zd : ℝ} {v : VarC ℝ} (hz : 0 ≤ zd) (hv : 0 ≤ v.vs0) (kdv : ℤ) (ar zt zl zc : ℝ) :
    avarQuantile kdv zd v ar zt zl zc = .ok (softR (ar - v.vmd - devR kdv zd v zt zl zc)) := by
  unfold avarQuantile
  simp only [sgtOf_ok hz, ok_bind, vsOf_ok]
  unfold avarDeviates yrSgc devR softR
  by_cases h0 : kdv = 0
  · subst h0
    simp only [if_true, npow_real, zero_lit]
    rw [mathSqrt_ok (by have := vsR_nonneg hv (sgtR zd v zc * zc) (v.sgl * zc) zc; positivity)]
    simp only [ok_bind, pure_ok, soften_ok, tdev]
    congr 1
    ring_nf
  · by_cases h1 : kdv = 1
    · subst h1
      simp only [if_true, npow_real, one_ne_zero, if_false]
      rw [mathSqrt_ok (by have := vsR_nonneg hv (sgtR zd v zt * zt) (v.sgl * zc) zc; positivity)]
      simp only [ok_bind, pure_ok, soften_ok, tdev]
      congr 1
      ring_nf
    · by_cases h2 : kdv = 2
      · subst h2
        simp only [if_true, npow_real, show ¬ (2 : ℤ) = 0 by decide, show ¬ (2 : ℤ) = 1 by decide, if_false]
        rw [mathSqrt_ok (by positivity), ok_bind, mathSqrt_ok (vsR_nonneg hv _ _ _)]
        simp only [ok_bind, pure_ok, soften_ok, tdev]
        congr 1
        ring_nf
      · simp only [h0, h1, h2, if_false]
        rw [mathSqrt_ok (vsR_nonneg hv _ _ _)]
        simp only [ok_bind, pure_ok, soften_ok, tdev]
        congr 1
        ring_nf

theorem softR_mono : Monotone softR := by
  intro x y hxy
  unfold softR
  split_ifs with h1 h2 h2
  · rw [div_le_div_iff₀ (by linarith) (by linarith)]
    nlinarith [mul_nonneg (sub_nonneg.2 hxy) (mul_pos_of_neg_of_neg h1 h2).le, mul_nonneg (sub_nonneg.2 hxy) (neg_nonneg.2 h1.le),
      mul_nonneg (sub_nonneg.2 hxy) (neg_nonneg.2 h2.le)]
  · have : x * (29 - x) / (29 - 10 * x) ≤ 0 := div_nonpos_of_nonpos_of_nonneg (by nlinarith) (by linarith)
    linarith
  · linarith
  · exact hxy

/-! ### The time deviation -/

theorem tdev_neg {zd : ℝ} (v : VarC ℝ) {z : ℝ} (h : z ≤ 0) : tdev zd v z = v.sgtm * z := by
  unfold tdev sgtR
  rcases lt_or_eq_of_le h with h | h
  · rw [if_pos h]
  · subst h; simp

theorem tdev_mid {zd : ℝ} (v : VarC ℝ) {z : ℝ} (h0 : 0 ≤ z) (h : z ≤ zd) : tdev zd v z = v.sgtp * z := by
  unfold tdev sgtR
  rw [if_neg (not_lt.2 h0), if_pos h]

theorem tdev_far {zd : ℝ} {v : VarC ℝ} (g : VarGood zd v) {z : ℝ} (h : zd ≤ z) :
    tdev zd v z = v.sgtd * z + v.tgtd := by
  have hz := g.zdp
  rcases eq_or_lt_of_le h with h | h
  · subst h
    rw [tdev_mid v hz.le (le_refl _), g.tgtd]; ring
  · unfold tdev sgtR
    rw [if_neg (by linarith), if_neg (by linarith)]
    have : z ≠ 0 := by linarith
    field_simp

theorem tdev_mono {zd : ℝ} {v : VarC ℝ} (g : VarGood zd v) : Monotone (tdev zd v) := by
  have hz := g.zdp
  have A : ∀ x y, x ≤ y → y ≤ 0 → tdev zd v x ≤ tdev zd v y := by
    intro x y hxy hy
    rw [tdev_neg v (hxy.trans hy), tdev_neg v hy]
    exact mul_le_mul_of_nonneg_left hxy g.sgtm
  have B : ∀ x y, x ≤ y → 0 ≤ x → y ≤ zd → tdev zd v x ≤ tdev zd v y := by
    intro x y hxy hx hy
    rw [tdev_mid v hx (hxy.trans hy), tdev_mid v (hx.trans hxy) hy]
    exact mul_le_mul_of_nonneg_left hxy g.sgtp
  have C : ∀ x y, x ≤ y → zd ≤ x → tdev zd v x ≤ tdev zd v y := by
    intro x y hxy hx
    rw [tdev_far g hx, tdev_far g (hx.trans hxy)]
    have := mul_le_mul_of_nonneg_left hxy g.sgtd
    linarith
  intro x y hxy
  by_cases hx : x ≤ 0
  · by_cases hy : y ≤ 0
    · exact A x y hxy hy
    · refine (A x 0 hx (le_refl _)).trans ?_
      by_cases hy' : y ≤ zd
      · exact B 0 y (by linarith) (le_refl _) hy'
      · exact (B 0 zd hz.le (le_refl _) (le_refl _)).trans (C zd y (by linarith) (le_refl _))
  · by_cases hy : y ≤ zd
    · exact B x y hxy (by linarith) hy
    · by_cases hx' : x ≤ zd
      · exact (B x zd hx' (by linarith) (le_refl _)).trans (C zd y (by linarith) (le_refl _))
      · exact C x y hxy (by linarith)

theorem tdev_zero (zd : ℝ) (v : VarC ℝ) : tdev zd v 0 = 0 := by unfold tdev; simp

theorem tdev_sq_pos {zd : ℝ} {v : VarC ℝ} (g : VarGood zd v) {x y : ℝ} (hx : 0 ≤ x) (hxy : x ≤ y) :
    tdev zd v x ^ 2 ≤ tdev zd v y ^ 2 := by
  have h0 : 0 ≤ tdev zd v x := by rw [← tdev_zero zd v]; exact tdev_mono g hx
  exact pow_le_pow_left₀ h0 (tdev_mono g hxy) 2

theorem tdev_sq_neg {zd : ℝ} {v : VarC ℝ} (g : VarGood zd v) {x y : ℝ} (hy : y ≤ 0) (hxy : x ≤ y) :
    tdev zd v y ^ 2 ≤ tdev zd v x ^ 2 := by
  have h0 : tdev zd v y ≤ 0 := by rw [← tdev_zero zd v]; exact tdev_mono g hy
  have h1 := tdev_mono g hxy
  nlinarith

/-! ### Antitone in the confidence deviate -/

theorem mono_signed {Q : ℝ → ℝ} (h0 : ∀ z, 0 ≤ Q z)
    (hpos : ∀ x y, 0 ≤ x → x ≤ y → x ^ 2 * Q x ≤ y ^ 2 * Q y)
    (hneg : ∀ x y, y ≤ 0 → x ≤ y → y ^ 2 * Q y ≤ x ^ 2 * Q x) : Monotone fun z => z * √(Q z) := by
  have P : ∀ z, 0 ≤ z → z * √(Q z) = √(z ^ 2 * Q z) := by
    intro z hz
    rw [Real.sqrt_mul (sq_nonneg z), Real.sqrt_sq hz]
  have N : ∀ z, z ≤ 0 → z * √(Q z) = -√(z ^ 2 * Q z) := by
    intro z hz
    rw [Real.sqrt_mul (sq_nonneg z), Real.sqrt_sq_eq_abs, abs_of_nonpos hz]; ring
  intro x y hxy
  simp only
  by_cases hx : 0 ≤ x
  · rw [P x hx, P y (hx.trans hxy)]
    exact Real.sqrt_le_sqrt (hpos x y hx hxy)
  · by_cases hy : y ≤ 0
    · rw [N x (by linarith), N y hy]
      exact neg_le_neg (Real.sqrt_le_sqrt (hneg x y hy hxy))
    · have h1 : x * √(Q x) ≤ 0 := mul_nonpos_of_nonpos_of_nonneg (by linarith) (Real.sqrt_nonneg _)
      have h2 : 0 ≤ y * √(Q y) := mul_nonneg (by linarith) (Real.sqrt_nonneg _)
      linarith

theorem frac_mono {c a b : ℝ} (hc : 0 < c) (ha : 0 ≤ a) (hab : a ≤ b) : a / (c + a) ≤ b / (c + b) := by
  rw [div_le_div_iff₀ (by linarith) (by linarith)]
  nlinarith

theorem sq_le_pos {x y : ℝ} (hx : 0 ≤ x) (h : x ≤ y) : x ^ 2 ≤ y ^ 2 := pow_le_pow_left₀ hx h 2
theorem sq_le_neg {x y : ℝ} (hy : y ≤ 0) (h : x ≤ y) : y ^ 2 ≤ x ^ 2 := by nlinarith

/-- `z ↦ z √(A + B z²/(24+z²) + C/(7.8+z²) + D/(24+z²))` is monotone. -/
theorem mono_conf {A B C D : ℝ} (hA : 0 ≤ A) (hB : 0 ≤ B) (hC : 0 ≤ C) (hD : 0 ≤ D) :
    Monotone fun z : ℝ => z * √(A + C / (7.8 + z ^ 2) + (B * z ^ 2 + D) / (24 + z ^ 2)) := by
  have key : ∀ x y : ℝ, x ^ 2 ≤ y ^ 2 →
      x ^ 2 * (A + C / (7.8 + x ^ 2) + (B * x ^ 2 + D) / (24 + x ^ 2)) ≤
      y ^ 2 * (A + C / (7.8 + y ^ 2) + (B * y ^ 2 + D) / (24 + y ^ 2)) := by
    intro x y h
    have f : ∀ z : ℝ, z ^ 2 * (A + C / (7.8 + z ^ 2) + (B * z ^ 2 + D) / (24 + z ^ 2)) =
        A * z ^ 2 + C * (z ^ 2 / (7.8 + z ^ 2)) + (B * z ^ 2 + D) * (z ^ 2 / (24 + z ^ 2)) := by
      intro z; ring
    rw [f, f]
    have g1 := frac_mono (c := 7.8) (by norm_num) (sq_nonneg x) h
    have g2 := frac_mono (c := 24) (by norm_num) (sq_nonneg x) h
    gcongr
  exact mono_signed (fun z => by positivity) (fun x y hx h => key x y (sq_le_pos hx h))
    (fun x y hy h => key y x (sq_le_neg hy h))

theorem devR_mono_zc {zd : ℝ} {v : VarC ℝ} (g : VarGood zd v) (kdv : ℤ) (zt zl : ℝ) :
    Monotone fun zc => devR kdv zd v zt zl zc := by
  have hv := g.vs0
  unfold devR
  by_cases h0 : kdv = 0
  · simp only [h0, if_true]
    have key : ∀ x y : ℝ, x ^ 2 ≤ y ^ 2 → tdev zd v x ^ 2 ≤ tdev zd v y ^ 2 →
        x ^ 2 * (sgtR zd v x ^ 2 + v.sgl ^ 2 + vsR v (tdev zd v x) (v.sgl * x) x) ≤
        y ^ 2 * (sgtR zd v y ^ 2 + v.sgl ^ 2 + vsR v (tdev zd v y) (v.sgl * y) y) := by
      intro x y h hT
      have f : ∀ z : ℝ, z ^ 2 * (sgtR zd v z ^ 2 + v.sgl ^ 2 + vsR v (tdev zd v z) (v.sgl * z) z) =
          tdev zd v z ^ 2 + v.sgl ^ 2 * z ^ 2 + v.vs0 * z ^ 2 + tdev zd v z ^ 2 * (z ^ 2 / (7.8 + z ^ 2)) +
            v.sgl ^ 2 * z ^ 2 * (z ^ 2 / (24 + z ^ 2)) := by
        intro z; unfold vsR tdev; ring
      rw [f, f]
      have g1 := frac_mono (c := 7.8) (by norm_num) (sq_nonneg x) h
      have g2 := frac_mono (c := 24) (by norm_num) (sq_nonneg x) h
      gcongr
    refine mono_signed (fun z => ?_) (fun x y hx h => key x y (sq_le_pos hx h) (tdev_sq_pos g hx h))
      (fun x y hy h => key y x (sq_le_neg hy h) (tdev_sq_neg g hy h))
    have := vsR_nonneg hv (tdev zd v z) (v.sgl * z) z
    positivity
  · by_cases h1 : kdv = 1
    · simp only [h1, if_true, one_ne_zero, if_false]
      have := mono_conf (A := v.sgl ^ 2 + v.vs0) (B := v.sgl ^ 2) (C := tdev zd v zt ^ 2) (D := 0)
        (by positivity) (by positivity) (by positivity) (le_refl _)
      intro x y h
      have h' := this h
      simp only at h' ⊢
      have f : ∀ z : ℝ, v.sgl ^ 2 + vsR v (tdev zd v zt) (v.sgl * z) z =
          v.sgl ^ 2 + v.vs0 + tdev zd v zt ^ 2 / (7.8 + z ^ 2) + (v.sgl ^ 2 * z ^ 2 + 0) / (24 + z ^ 2) := by
        intro z; unfold vsR; ring
      rw [f, f]; linarith
    · have E : ∀ L : ℝ, Monotone fun z => z * √(vsR v (tdev zd v zt) L z) := by
        intro L x y h
        have := mono_conf (A := v.vs0) (B := 0) (C := tdev zd v zt ^ 2) (D := L ^ 2)
          hv (le_refl _) (by positivity) (by positivity) h
        simp only [zero_mul, zero_add] at this
        exact this
      by_cases h2 : kdv = 2
      · simp only [h2, if_true, if_false, show ¬ (2 : ℤ) = 0 by decide, show ¬ (2 : ℤ) = 1 by decide]
        intro x y h
        have := E (v.sgl * zt) h
        simp only at this ⊢; linarith
      · simp only [h0, h1, h2, if_false]
        intro x y h
        have := E (v.sgl * zl) h
        simp only at this ⊢; linarith

/-! ### Antitone in the reliability deviates -/

/-- The confidence term moves less than the deviation itself. -/
theorem conf_lip {K c m x y : ℝ} (hK : 0 ≤ K) (hm : 0 ≤ m) (hcm : c ^ 2 * m ≤ 1) :
    |c * √(K + m * y ^ 2) - c * √(K + m * x ^ 2)| ≤ |y - x| := by
  have hs : ∀ u : ℝ, 0 ≤ K + m * u ^ 2 := fun u => by positivity
  have h1 : c ^ 2 * (√(K + m * y ^ 2) - √(K + m * x ^ 2)) ^ 2 ≤ (y - x) ^ 2 := by
    have e : (√(K + m * y ^ 2) - √(K + m * x ^ 2)) ^ 2 ≤ m * (y - x) ^ 2 := by
      have hy := Real.sq_sqrt (hs y)
      have hx := Real.sq_sqrt (hs x)
      have hp : K + m * (x * y) ≤ √(K + m * y ^ 2) * √(K + m * x ^ 2) := by
        rw [← Real.sqrt_mul (hs y)]
        apply Real.le_sqrt_of_sq_le
        nlinarith [mul_nonneg (mul_nonneg hK hm) (sq_nonneg (x - y))]
      nlinarith
    calc c ^ 2 * (√(K + m * y ^ 2) - √(K + m * x ^ 2)) ^ 2 ≤ c ^ 2 * (m * (y - x) ^ 2) :=
          mul_le_mul_of_nonneg_left e (sq_nonneg c)
      _ = (c ^ 2 * m) * (y - x) ^ 2 := by ring
      _ ≤ 1 * (y - x) ^ 2 := mul_le_mul_of_nonneg_right hcm (sq_nonneg _)
      _ = _ := one_mul _
  rw [← mul_sub]
  apply sq_le_sq.1
  rw [mul_pow]
  exact h1

theorem conf_mono {K c m x y : ℝ} (hK : 0 ≤ K) (hm : 0 ≤ m) (hcm : c ^ 2 * m ≤ 1) (h : x ≤ y) :
    x + c * √(K + m * x ^ 2) ≤ y + c * √(K + m * y ^ 2) := by
  have := (abs_le.1 (conf_lip (x := x) (y := y) hK hm hcm)).1
  rw [abs_of_nonneg (sub_nonneg.2 h)] at this
  linarith

theorem wt_le_one (c k : ℝ) (hk : 0 < k) : c ^ 2 * (1 / (k + c ^ 2)) ≤ 1 := by
  rw [mul_one_div, div_le_one (by positivity)]
  linarith

/-- Inequality between the slopes of the two deviations beyond `zd` (mobile mode). -/
theorem slope_ineq {A B u w e p q : ℝ} (hA : 0 ≤ A) (hB : 0 ≤ B) (hA1 : A ≤ 1) (hBA : B ≤ A) (hu : 0 ≤ u) (hw : 0 ≤ w)
    (he0 : 0 ≤ e) (he : e ≤ 2 * u) (hp : 0 ≤ p) (hq : 0 ≤ q) (hp2 : p ^ 2 = u + w) (hq2 : q ^ 2 = A * u + B * w) :
    (A * e + B * w) * p ≤ (e + w) * q := by
  have hBp : B * p ≤ q := by
    apply (sq_le_sq₀ (by positivity) hq).1
    rw [mul_pow, hp2, hq2]
    have : B ^ 2 ≤ B := by nlinarith
    nlinarith [mul_le_mul_of_nonneg_right this hu, mul_le_mul_of_nonneg_right this hw, mul_le_mul_of_nonneg_right hBA hu]
  have h2 : (A * (2 * u) + B * w) * p ≤ (2 * u + w) * q := by
    apply (sq_le_sq₀ (by positivity) (by positivity)).1
    rw [mul_pow, mul_pow, hp2, hq2]
    have c1 : 0 ≤ A * (1 - A) := mul_nonneg hA (by linarith)
    have c2 : 0 ≤ (A + B) * (1 - A) := mul_nonneg (by linarith) (by linarith)
    have c3 : 0 ≤ 4 * B * (1 - A) + (A - B ^ 2) := by nlinarith [mul_nonneg hB (sub_nonneg.2 hA1)]
    have c4 : 0 ≤ B * (1 - B) := mul_nonneg hB (by linarith)
    have := mul_nonneg c1 (pow_nonneg hu 3)
    have := mul_nonneg c2 (mul_nonneg (pow_nonneg hu 2) hw)
    have := mul_nonneg c3 (mul_nonneg hu (pow_nonneg hw 2))
    have := mul_nonneg c4 (pow_nonneg hw 3)
    nlinarith
  by_cases hAp : A * p ≤ q
  · nlinarith [mul_le_mul_of_nonneg_left hAp he0, mul_le_mul_of_nonneg_left hBp hw]
  · have : e * (A * p - q) ≤ 2 * u * (A * p - q) := mul_le_mul_of_nonneg_right he (by linarith)
    nlinarith

/-- Beyond `zd`, mobile mode: `√(T² + L²) + c √(K + a T² + b L²)` grows with `z`, for `T = s z + t`, `L = l z`. -/
theorem mobile_far {s t l K c zd : ℝ} (hs : 0 ≤ s) (hl : 0 < l) (hK : 0 ≤ K) (hz : 0 < zd) (hT : 0 ≤ s * zd + t)
    (ht : -t ≤ s * zd + t) :
    MonotoneOn (fun z : ℝ => √((s * z + t) ^ 2 + (l * z) ^ 2) +
      c * √(K + (s * z + t) ^ 2 / (7.8 + c ^ 2) + (l * z) ^ 2 / (24 + c ^ 2))) (Set.Ici zd) := by
  have hR : ∀ z, zd ≤ z → 0 < (s * z + t) ^ 2 + (l * z) ^ 2 := by
    intro z h; have : 0 < l * z := mul_pos hl (by linarith)
    positivity
  have hS : ∀ z, zd ≤ z → 0 < K + (s * z + t) ^ 2 / (7.8 + c ^ 2) + (l * z) ^ 2 / (24 + c ^ 2) := by
    intro z h; have : 0 < l * z := mul_pos hl (by linarith)
    positivity
  have hder : ∀ z, zd ≤ z → HasDerivAt (fun z : ℝ => √((s * z + t) ^ 2 + (l * z) ^ 2) +
      c * √(K + (s * z + t) ^ 2 / (7.8 + c ^ 2) + (l * z) ^ 2 / (24 + c ^ 2)))
      ((2 * (s * z + t) * s + 2 * (l * z) * l) / (2 * √((s * z + t) ^ 2 + (l * z) ^ 2)) +
        c * ((2 * (s * z + t) * s / (7.8 + c ^ 2) + 2 * (l * z) * l / (24 + c ^ 2)) /
          (2 * √(K + (s * z + t) ^ 2 / (7.8 + c ^ 2) + (l * z) ^ 2 / (24 + c ^ 2))))) z := by
    intro z h
    have d1 : HasDerivAt (fun z : ℝ => s * z + t) s z := by
      simpa using ((hasDerivAt_id z).const_mul s).add_const t
    have d2 : HasDerivAt (fun z : ℝ => l * z) l z := by
      simpa using (hasDerivAt_id z).const_mul l
    have e1 : HasDerivAt (fun z : ℝ => (s * z + t) ^ 2) (2 * (s * z + t) * s) z := by
      simpa using d1.fun_pow 2
    have e2 : HasDerivAt (fun z : ℝ => (l * z) ^ 2) (2 * (l * z) * l) z := by
      simpa using d2.fun_pow 2
    have f1 := (e1.add e2).sqrt (hR z h).ne'
    have f2 := (((e1.div_const (7.8 + c ^ 2)).const_add K).add (e2.div_const (24 + c ^ 2))).sqrt (hS z h).ne'
    exact f1.add (f2.const_mul c)
  apply monotoneOn_of_deriv_nonneg (convex_Ici zd)
  · exact fun z h => (hder z h).continuousAt.continuousWithinAt
  · intro z h
    rw [interior_Ici] at h
    exact (hder z (le_of_lt h)).differentiableAt.differentiableWithinAt
  · intro z h
    rw [interior_Ici] at h
    have h : zd ≤ z := le_of_lt h
    rw [(hder z h).deriv]
    have hz0 : 0 < z := by linarith
    set T := s * z + t with hTd
    have hT0 : 0 ≤ T := by nlinarith
    have hTt : s * z ≤ 2 * T := by nlinarith
    set R := √(T ^ 2 + (l * z) ^ 2) with hRd
    set S := √(K + T ^ 2 / (7.8 + c ^ 2) + (l * z) ^ 2 / (24 + c ^ 2)) with hSd
    have hR0 : 0 < R := Real.sqrt_pos.2 (hR z h)
    have hS0 : 0 < S := Real.sqrt_pos.2 (hS z h)
    set q := |c| * √(T ^ 2 / (7.8 + c ^ 2) + (l * z) ^ 2 / (24 + c ^ 2)) with hq
    have hqS : q ≤ |c| * S := mul_le_mul_of_nonneg_left (Real.sqrt_le_sqrt (by linarith)) (abs_nonneg c)
    have hq0 : 0 ≤ q := by positivity
    have key := slope_ineq (A := c ^ 2 * (1 / (7.8 + c ^ 2))) (B := c ^ 2 * (1 / (24 + c ^ 2))) (u := T ^ 2)
      (w := (l * z) ^ 2) (e := T * (s * z)) (p := R) (q := q) (by positivity) (by positivity)
      (wt_le_one c 7.8 (by norm_num)) ?_ (by positivity) (by positivity) (by positivity) (by nlinarith) hR0.le hq0
      (Real.sq_sqrt (hR z h).le) ?_
    · -- |c| * slopeS ≤ slopeR
      have k2 : (c ^ 2 * (1 / (7.8 + c ^ 2)) * (T * (s * z)) + c ^ 2 * (1 / (24 + c ^ 2)) * (l * z) ^ 2) * R ≤
          (T * (s * z) + (l * z) ^ 2) * (|c| * S) :=
        key.trans (mul_le_mul_of_nonneg_left hqS (by positivity))
      set X := T * s / (7.8 + c ^ 2) + l * z * l / (24 + c ^ 2) with hX
      have hX0 : 0 ≤ X := by positivity
      have k3 : |c| * (|c| * X * R * z) ≤ |c| * ((T * s + l * z * l) * S * z) := by
        have e1 : (c ^ 2 * (1 / (7.8 + c ^ 2)) * (T * (s * z)) + c ^ 2 * (1 / (24 + c ^ 2)) * (l * z) ^ 2) * R =
            |c| * (|c| * X * R * z) := by
          have hcc : |c| * (|c| * X * R * z) = |c| ^ 2 * X * R * z := by ring
          rw [hcc, sq_abs, hX]; ring
        rw [← e1]; calc _ ≤ _ := k2
          _ = _ := by ring
      have k4 : |c| * X * R ≤ (T * s + l * z * l) * S := by
        rcases eq_or_lt_of_le (abs_nonneg c) with h0 | h0
        · rw [← h0]; simp only [zero_mul]; positivity
        · exact le_of_mul_le_mul_right (le_of_mul_le_mul_left k3 h0) hz0
      have k5 : |c| * X / S ≤ (T * s + l * z * l) / R := by
        rw [div_le_div_iff₀ hS0 hR0]; exact k4
      have k6 : -(|c| * X / S) ≤ c * X / S := by
        rw [← neg_div]
        apply div_le_div_of_nonneg_right _ hS0.le
        have := neg_abs_le c
        nlinarith
      have r1 : (2 * T * s + 2 * (l * z) * l) / (2 * R) = (T * s + l * z * l) / R := by
        field_simp
      have r2 : c * ((2 * T * s / (7.8 + c ^ 2) + 2 * (l * z) * l / (24 + c ^ 2)) / (2 * S)) = c * X / S := by
        rw [hX]; field_simp
      rw [r1, r2]
      linarith
    · apply mul_le_mul_of_nonneg_left _ (sq_nonneg c)
      apply one_div_le_one_div_of_le (by positivity)
      linarith
    · rw [hq, mul_pow, sq_abs, Real.sq_sqrt (by positivity)]
      ring

theorem devR_mono_zt {zd : ℝ} {v : VarC ℝ} (g : VarGood zd v) {kdv : ℤ} (hk : kdv ≠ 0) (zl zc : ℝ) :
    Monotone fun zt => devR kdv zd v zt zl zc := by
  have hv := g.vs0
  have w1 := wt_le_one zc 7.8 (by norm_num)
  have w2 := wt_le_one zc 24 (by norm_num)
  unfold devR
  simp only [hk, if_false]
  by_cases h1 : kdv = 1
  · simp only [h1, if_true]
    intro x y h
    have := conf_mono (K := v.sgl ^ 2 + v.vs0 + (v.sgl * zc) ^ 2 / (24 + zc ^ 2)) (c := zc) (m := 1 / (7.8 + zc ^ 2))
      (by positivity) (by positivity) w1 (tdev_mono g h)
    simp only
    have f : ∀ T : ℝ, v.sgl ^ 2 + vsR v T (v.sgl * zc) zc =
        v.sgl ^ 2 + v.vs0 + (v.sgl * zc) ^ 2 / (24 + zc ^ 2) + 1 / (7.8 + zc ^ 2) * T ^ 2 := by
      intro T; unfold vsR; ring
    rw [f, f]; exact this
  · by_cases h2 : kdv = 2
    · simp only [h1, h2, if_true, if_false, show ¬ (2 : ℤ) = 1 by decide]
      set F : ℝ → ℝ := fun zt => zt * √(sgtR zd v zt ^ 2 + v.sgl ^ 2) + zc * √(vsR v (tdev zd v zt) (v.sgl * zt) zc) with hF
      -- a stretch with constant deviation
      have lin : ∀ r x y : ℝ, x ≤ y →
          x * √(r ^ 2 + v.sgl ^ 2) + zc * √(vsR v (r * x) (v.sgl * x) zc) ≤
          y * √(r ^ 2 + v.sgl ^ 2) + zc * √(vsR v (r * y) (v.sgl * y) zc) := by
        intro r x y h
        set ρ := √(r ^ 2 + v.sgl ^ 2) with hρ
        have hρ2 : ρ ^ 2 = r ^ 2 + v.sgl ^ 2 := Real.sq_sqrt (by positivity)
        rcases eq_or_lt_of_le (Real.sqrt_nonneg (r ^ 2 + v.sgl ^ 2)) with h0 | h0
        · have : r ^ 2 + v.sgl ^ 2 = 0 := by rw [← hρ2, hρ, ← h0]; ring
          have hr : r = 0 := by nlinarith [sq_nonneg v.sgl]
          have hsl : v.sgl = 0 := by nlinarith [sq_nonneg r]
          rw [hρ, ← h0, hr, hsl]; simp
        · have hρ0 : 0 < ρ := h0
          have c1 := conf_mono (K := v.vs0) (c := zc) (m := (r ^ 2 / (7.8 + zc ^ 2) + v.sgl ^ 2 / (24 + zc ^ 2)) / ρ ^ 2)
            (x := x * ρ) (y := y * ρ) hv (by positivity) ?_ (mul_le_mul_of_nonneg_right h hρ0.le)
          · have f : ∀ z : ℝ, vsR v (r * z) (v.sgl * z) zc =
                v.vs0 + (r ^ 2 / (7.8 + zc ^ 2) + v.sgl ^ 2 / (24 + zc ^ 2)) / ρ ^ 2 * (z * ρ) ^ 2 := by
              intro z; unfold vsR; field_simp
              ring
            rw [f, f]; exact c1
          · rw [mul_div_assoc', div_le_one (by positivity), hρ2]
            have e1 : zc ^ 2 * (r ^ 2 / (7.8 + zc ^ 2) + v.sgl ^ 2 / (24 + zc ^ 2)) =
              r ^ 2 * (zc ^ 2 * (1 / (7.8 + zc ^ 2))) + v.sgl ^ 2 * (zc ^ 2 * (1 / (24 + zc ^ 2))) := by ring
            rw [e1]
            nlinarith [mul_le_mul_of_nonneg_left w1 (sq_nonneg r), mul_le_mul_of_nonneg_left w2 (sq_nonneg v.sgl)]
      have hz := g.zdp
      have Fneg : ∀ z, z ≤ 0 → F z = z * √(v.sgtm ^ 2 + v.sgl ^ 2) + zc * √(vsR v (v.sgtm * z) (v.sgl * z) zc) := by
        intro z h
        rw [hF]; simp only
        rw [tdev_neg v h]
        rcases lt_or_eq_of_le h with h | h
        · have : sgtR zd v z = v.sgtm := by unfold sgtR; rw [if_pos h]
          rw [this]
        · subst h; simp
      have Fmid : ∀ z, 0 ≤ z → z ≤ zd → F z = z * √(v.sgtp ^ 2 + v.sgl ^ 2) + zc * √(vsR v (v.sgtp * z) (v.sgl * z) zc) := by
        intro z h h'
        rw [hF]; simp only
        have : sgtR zd v z = v.sgtp := by unfold sgtR; rw [if_neg (by linarith), if_pos h']
        rw [tdev_mid v h h', this]
      have Ffar : ∀ z, zd ≤ z → F z = √((v.sgtd * z + v.tgtd) ^ 2 + (v.sgl * z) ^ 2) +
          zc * √(v.vs0 + (v.sgtd * z + v.tgtd) ^ 2 / (7.8 + zc ^ 2) + (v.sgl * z) ^ 2 / (24 + zc ^ 2)) := by
        intro z h
        rw [hF]; simp only
        have e : z * √(sgtR zd v z ^ 2 + v.sgl ^ 2) = √(tdev zd v z ^ 2 + (v.sgl * z) ^ 2) := by
          have : tdev zd v z ^ 2 + (v.sgl * z) ^ 2 = z ^ 2 * (sgtR zd v z ^ 2 + v.sgl ^ 2) := by unfold tdev; ring
          rw [this, Real.sqrt_mul (sq_nonneg z), Real.sqrt_sq (by linarith)]
        rw [e, tdev_far g h]; rfl
      have A : ∀ x y, x ≤ y → y ≤ 0 → F x ≤ F y := fun x y h hy => by
        rw [Fneg x (h.trans hy), Fneg y hy]; exact lin _ x y h
      have B : ∀ x y, x ≤ y → 0 ≤ x → y ≤ zd → F x ≤ F y := fun x y h hx hy => by
        rw [Fmid x hx (h.trans hy), Fmid y (hx.trans h) hy]; exact lin _ x y h
      have C : ∀ x y, x ≤ y → zd ≤ x → F x ≤ F y := by
        intro x y h hx
        have ht1 : 0 ≤ v.sgtd * zd + v.tgtd := by
          rw [g.tgtd]; nlinarith [mul_nonneg g.sgtp hz.le]
        have ht2 : -v.tgtd ≤ v.sgtd * zd + v.tgtd := by
          rw [g.tgtd]; nlinarith [mul_le_mul_of_nonneg_right g.csd hz.le]
        by_cases hl : v.sgl = 0
        · -- no location variability: the deviation is the time deviation itself
          rw [Ffar x hx, Ffar y (hx.trans h)]
          have hx0 : 0 ≤ v.sgtd * x + v.tgtd := by nlinarith [mul_le_mul_of_nonneg_left hx g.sgtd]
          have hxy : v.sgtd * x + v.tgtd ≤ v.sgtd * y + v.tgtd := by nlinarith [mul_le_mul_of_nonneg_left h g.sgtd]
          have c1 := conf_mono (K := v.vs0) (c := zc) (m := 1 / (7.8 + zc ^ 2)) hv (by positivity) w1 hxy
          have f : ∀ T z : ℝ, v.vs0 + T ^ 2 / (7.8 + zc ^ 2) + (v.sgl * z) ^ 2 / (24 + zc ^ 2) =
              v.vs0 + 1 / (7.8 + zc ^ 2) * T ^ 2 := by
            intro T z; rw [hl]; ring
          have f2 : ∀ T z : ℝ, 0 ≤ T → √(T ^ 2 + (v.sgl * z) ^ 2) = T := by
            intro T z hT; rw [hl]; simp [Real.sqrt_sq hT]
          rw [f, f, f2 _ _ hx0, f2 _ _ (hx0.trans hxy)]
          exact c1
        · have c1 := mobile_far (s := v.sgtd) (t := v.tgtd) (l := |v.sgl|) (K := v.vs0) (c := zc) (zd := zd)
            g.sgtd (abs_pos.2 hl) hv hz ht1 ht2 (Set.mem_Ici.2 hx) (Set.mem_Ici.2 (hx.trans h)) h
          have f : ∀ z : ℝ, (|v.sgl| * z) ^ 2 = (v.sgl * z) ^ 2 := by
            intro z; rw [mul_pow, sq_abs, mul_pow]
          simp only [f] at c1
          rw [Ffar x hx, Ffar y (hx.trans h)]
          exact c1
      intro x y hxy
      show F x ≤ F y
      by_cases hx : x ≤ 0
      · by_cases hy : y ≤ 0
        · exact A x y hxy hy
        · refine (A x 0 hx (le_refl _)).trans ?_
          by_cases hy' : y ≤ zd
          · exact B 0 y (by linarith) (le_refl _) hy'
          · exact (B 0 zd hz.le (le_refl _) (le_refl _)).trans (C zd y (by linarith) (le_refl _))
      · by_cases hy : y ≤ zd
        · exact B x y hxy (by linarith) hy
        · by_cases hx' : x ≤ zd
          · exact (B x zd hx' (by linarith) (le_refl _)).trans (C zd y (by linarith) (le_refl _))
          · exact C x y hxy (by linarith)
    · simp only [h1, h2, if_false]
      intro x y h
      have := conf_mono (K := v.vs0 + (v.sgl * zl) ^ 2 / (24 + zc ^ 2)) (c := zc) (m := 1 / (7.8 + zc ^ 2))
        (by positivity) (by positivity) w1 (tdev_mono g h)
      simp only
      have f : ∀ T : ℝ, vsR v T (v.sgl * zl) zc =
          v.vs0 + (v.sgl * zl) ^ 2 / (24 + zc ^ 2) + 1 / (7.8 + zc ^ 2) * T ^ 2 := by
        intro T; unfold vsR; ring
      rw [f, f]; linarith

theorem devR_mono_zl {zd : ℝ} {v : VarC ℝ} (g : VarGood zd v) (hl : 0 ≤ v.sgl) {kdv : ℤ} (h0 : kdv ≠ 0) (h1 : kdv ≠ 1)
    (h2 : kdv ≠ 2) (zt zc : ℝ) : Monotone fun zl => devR kdv zd v zt zl zc := by
  have hv := g.vs0
  have w2 := wt_le_one zc 24 (by norm_num)
  unfold devR
  simp only [h0, h1, h2, if_false]
  intro x y h
  have := conf_mono (K := v.vs0 + (tdev zd v zt) ^ 2 / (7.8 + zc ^ 2)) (c := zc) (m := 1 / (24 + zc ^ 2))
    (by positivity) (by positivity) w2 (mul_le_mul_of_nonneg_left h hl)
  simp only
  have f : ∀ L : ℝ, vsR v (tdev zd v zt) L zc =
      v.vs0 + (tdev zd v zt) ^ 2 / (7.8 + zc ^ 2) + 1 / (24 + zc ^ 2) * L ^ 2 := by
    intro T; unfold vsR; ring
  rw [f, f]; linarith

end Itm
