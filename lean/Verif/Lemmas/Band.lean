import Verif.Lemmas.AvarGood
import Verif.Lemmas.Basic

/-! Sizes of the variability: how far a quantile can lie from the reference attenuation. -/

namespace Itm
open Real

theorem sqrt3_le {a b w : ℝ} (ha : 0 ≤ a) (hb : 0 ≤ b) (hw : 0 ≤ w) : √(a ^ 2 + b ^ 2 + w) ≤ a + b + √w := by
  have := sqrt_nonneg w
  rw [sqrt_le_left (by positivity)]
  nlinarith [sq_sqrt hw, mul_nonneg ha hb, mul_nonneg ha this, mul_nonneg hb this]

theorem sqrt2_le {a w : ℝ} (ha : 0 ≤ a) (hw : 0 ≤ w) : √(a ^ 2 + w) ≤ a + √w := by
  have := sqrt3_le ha le_rfl hw (b := 0)
  simpa using this

theorem devR_top {zd : ℝ} {v : VarC ℝ} (g : VarGood zd v) (hl : 0 ≤ v.sgl) (kdv : ℤ) {Z zt zl zc : ℝ} (ht : zt ≤ Z) (hl' : zl ≤ Z) (hc : zc ≤ Z) :
    devR kdv zd v zt zl zc ≤ devR kdv zd v Z Z Z := by
  have c := devR_mono_zc g kdv zt zl hc
  refine c.trans ?_
  simp only
  by_cases h0 : kdv = 0
  · unfold devR; rw [if_pos h0, if_pos h0]
  · have t := devR_mono_zt g h0 zl Z ht
    refine t.trans ?_
    simp only
    by_cases h1 : kdv = 1
    · unfold devR; rw [if_neg h0, if_neg h0, if_pos h1, if_pos h1]
    · by_cases h2 : kdv = 2
      · unfold devR; rw [if_neg h0, if_neg h0, if_neg h1, if_neg h1, if_pos h2, if_pos h2]
      · exact devR_mono_zl g hl h0 h1 h2 Z Z hl'

theorem devR_bot {zd : ℝ} {v : VarC ℝ} (g : VarGood zd v) (hl : 0 ≤ v.sgl) (kdv : ℤ) {Z zt zl zc : ℝ} (ht : Z ≤ zt) (hl' : Z ≤ zl) (hc : Z ≤ zc) :
    devR kdv zd v Z Z Z ≤ devR kdv zd v zt zl zc := by
  have c := devR_mono_zc g kdv zt zl hc
  refine le_trans ?_ c
  simp only
  by_cases h0 : kdv = 0
  · unfold devR; rw [if_pos h0, if_pos h0]
  · have t := devR_mono_zt g h0 zl Z ht
    refine le_trans ?_ t
    simp only
    by_cases h1 : kdv = 1
    · unfold devR; rw [if_neg h0, if_neg h0, if_pos h1, if_pos h1]
    · by_cases h2 : kdv = 2
      · unfold devR; rw [if_neg h0, if_neg h0, if_neg h1, if_neg h1, if_pos h2, if_pos h2]
      · exact devR_mono_zl g hl h0 h1 h2 Z Z hl'

theorem vs_corner {v : VarC ℝ} {S s l Z W : ℝ} (hS : 0 ≤ S) (hSs : S ≤ s) (hl : 0 ≤ v.sgl) (hll : v.sgl ≤ l) (hv : v.vs0 ≤ 64)
    (hW : 64 + s ^ 2 * (Z ^ 2 / (7.8 + Z ^ 2)) + l ^ 2 * (Z ^ 2 / (24 + Z ^ 2)) ≤ W) : vsR v (S * Z) (v.sgl * Z) Z ≤ W := by
  refine le_trans ?_ hW
  unfold vsR
  have a : (S * Z) ^ 2 / (7.8 + Z ^ 2) = S ^ 2 * (Z ^ 2 / (7.8 + Z ^ 2)) := by ring
  have b : (v.sgl * Z) ^ 2 / (24 + Z ^ 2) = v.sgl ^ 2 * (Z ^ 2 / (24 + Z ^ 2)) := by ring
  rw [a, b]
  have c1 : S ^ 2 ≤ s ^ 2 := pow_le_pow_left₀ hS hSs 2
  have c2 : v.sgl ^ 2 ≤ l ^ 2 := pow_le_pow_left₀ hl hll 2
  have c3 : S ^ 2 * (Z ^ 2 / (7.8 + Z ^ 2)) ≤ s ^ 2 * (Z ^ 2 / (7.8 + Z ^ 2)) := mul_le_mul_of_nonneg_right c1 (by positivity)
  have c4 : v.sgl ^ 2 * (Z ^ 2 / (24 + Z ^ 2)) ≤ l ^ 2 * (Z ^ 2 / (24 + Z ^ 2)) := mul_le_mul_of_nonneg_right c2 (by positivity)
  linarith

/-- The deviation at the corner `z` (of size `Z`, either sign) of the cube of deviates. -/
theorem devR_corner {zd : ℝ} {v : VarC ℝ} (kdv : ℤ) {s l z Z w : ℝ} (hZ : 0 ≤ Z) (hz : |z| = Z) (hS : 0 ≤ sgtR zd v z) (hSs : sgtR zd v z ≤ s)
    (hl : 0 ≤ v.sgl) (hll : v.sgl ≤ l) (hv0 : 0 ≤ v.vs0) (hv : v.vs0 ≤ 64) (hw : 0 ≤ w)
    (hW : 64 + s ^ 2 * (Z ^ 2 / (7.8 + Z ^ 2)) + l ^ 2 * (Z ^ 2 / (24 + Z ^ 2)) ≤ w ^ 2) : |devR kdv zd v z z z| ≤ Z * (s + l + w) := by
  have hzz : z ^ 2 = Z ^ 2 := by rw [← hz, sq_abs]
  have V : vsR v (tdev zd v z) (v.sgl * z) z ≤ w ^ 2 := by
    refine vs_corner hS hSs hl hll hv ?_
    rw [hzz]; exact hW
  have V0 := vsR_nonneg hv0 (tdev zd v z) (v.sgl * z) z
  have R : √(vsR v (tdev zd v z) (v.sgl * z) z) ≤ w := sqrt_le_iff.2 ⟨hw, V⟩
  unfold devR
  set q := vsR v (tdev zd v z) (v.sgl * z) z
  set S := sgtR zd v z with hSd
  have hT : tdev zd v z = S * z := rfl
  have m : ∀ {x y : ℝ}, x ≤ y → 0 ≤ x → |z * x| ≤ Z * y := fun {x y} h h0 => by
    rw [abs_mul, hz, abs_of_nonneg h0]; exact mul_le_mul_of_nonneg_left h hZ
  have q0 := sqrt_nonneg q
  split_ifs with h0 h1 h2
  · exact m (by have := sqrt3_le hS hl V0; linarith) (sqrt_nonneg _)
  · rw [hT, mul_comm S z, ← mul_add]
    exact m (by have := sqrt2_le hl V0; linarith) (add_nonneg hS (sqrt_nonneg _))
  · rw [← mul_add]
    exact m (by have := sqrt2_le hS (sq_nonneg v.sgl); rw [sqrt_sq hl] at this; linarith) (add_nonneg (sqrt_nonneg _) (sqrt_nonneg _))
  · rw [hT, mul_comm S z, mul_comm v.sgl z, ← mul_add, ← mul_add]
    exact m (by linarith) (by positivity)

/-- The softened value keeps a tenth of a deep deficit, and 2.61 dB. -/
theorem softR_ge {a b : ℝ} (h : -b ≤ a) (hb : 0 ≤ b) : -(b / 10 + 2.61) ≤ softR a := by
  unfold softR
  split_ifs with h0
  · rw [le_div_iff₀ (by linarith)]
    nlinarith
  · norm_num; linarith

theorem softR_le {a b : ℝ} (h : a ≤ b) (hb : 0 ≤ b) : softR a ≤ b := by
  refine (softR_mono h).trans (le_of_eq ?_)
  unfold softR; rw [if_neg (by linarith)]

/-! ### The curves -/

theorem curv_eq (c1 c2 x1 x2 x3 de : ℝ) : curv c1 c2 x1 x2 x3 de =
    (c1 + c2 / (1 + ((de - x2) / x3) ^ 2)) * ((de / x1) ^ 2 / (1 + (de / x1) ^ 2)) := by
  unfold curv
  simp only [npow_real]
  rw [show (1.0 : ℝ) = 1 by norm_num]
  ring

theorem frac_range (t : ℝ) : 0 ≤ t ^ 2 / (1 + t ^ 2) ∧ t ^ 2 / (1 + t ^ 2) ≤ 1 :=
  ⟨by positivity, by rw [div_le_one (by positivity)]; linarith⟩

/-- The second term of a curve with a far reaching first distance stays small: its bump is over before the factor has grown. -/
theorem curv_far {c1 c2 x1 x2 x3 : ℝ} (h1 : 0 ≤ c1) (h2 : 0 ≤ c2) (hx1 : 0 < x1) (hx3 : 0 < x3) (de : ℝ) :
    curv c1 c2 x1 x2 x3 de ≤ c1 + c2 * ((x2 ^ 2 + x3 ^ 2) / x1 ^ 2) := by
  rw [curv_eq]
  obtain ⟨f0, f1⟩ := frac_range (de / x1)
  set u := (de - x2) / x3 with hu
  have hde : de = x2 + x3 * u := by rw [hu]; field_simp; ring
  have a : c1 * ((de / x1) ^ 2 / (1 + (de / x1) ^ 2)) ≤ c1 := mul_le_of_le_one_right h1 f1
  have b : 1 / (1 + u ^ 2) * ((de / x1) ^ 2 / (1 + (de / x1) ^ 2)) ≤ (x2 ^ 2 + x3 ^ 2) / x1 ^ 2 := by
    have e : (de / x1) ^ 2 / (1 + (de / x1) ^ 2) ≤ (de / x1) ^ 2 := div_le_self (sq_nonneg _) (by nlinarith [sq_nonneg (de / x1)])
    refine (mul_le_mul_of_nonneg_left e (by positivity)).trans ?_
    have k : de ^ 2 ≤ (1 + u ^ 2) * (x2 ^ 2 + x3 ^ 2) := by
      rw [hde]
      nlinarith [sq_nonneg (x2 * u - x3)]
    clear_value u
    rw [div_pow, one_div_mul_eq_div, div_div, div_le_div_iff₀ (by positivity) (by positivity)]
    nlinarith [mul_le_mul_of_nonneg_right k (sq_nonneg x1)]
  have c : c2 / (1 + u ^ 2) * ((de / x1) ^ 2 / (1 + (de / x1) ^ 2)) ≤ c2 * ((x2 ^ 2 + x3 ^ 2) / x1 ^ 2) := by
    have := mul_le_mul_of_nonneg_left b h2
    calc _ = c2 * (1 / (1 + u ^ 2) * ((de / x1) ^ 2 / (1 + (de / x1) ^ 2))) := by ring
      _ ≤ _ := this
  rw [add_mul]; linarith

/-- A curve that starts negative lies above its first coefficient and below the sum. -/
theorem curv_signed {c1 c2 x1 x2 x3 B : ℝ} (h1 : c1 ≤ 0) (h2 : 0 ≤ c2) (hB : c1 + c2 ≤ B) (hB0 : 0 ≤ B) (de : ℝ) :
    c1 ≤ curv c1 c2 x1 x2 x3 de ∧ curv c1 c2 x1 x2 x3 de ≤ B := by
  rw [curv_eq]
  obtain ⟨f0, f1⟩ := frac_range (de / x1)
  set f := (de / x1) ^ 2 / (1 + (de / x1) ^ 2)
  have q0 : 0 ≤ c2 / (1 + ((de - x2) / x3) ^ 2) := by positivity
  have q1 : c2 / (1 + ((de - x2) / x3) ^ 2) ≤ c2 := div_le_self h2 (by nlinarith [sq_nonneg ((de - x2) / x3)])
  set q := c2 / (1 + ((de - x2) / x3) ^ 2)
  constructor <;> nlinarith [mul_nonneg q0 f0, mul_nonneg (sub_nonneg.2 f1) (neg_nonneg.2 h1)]

theorem gain_range {c : Climate ℝ} {wn : ℝ} {g : FreqGain ℝ} (h : freqGain c wn = .ok g) (h2 : 0 ≤ c.cfm2) (h3 : 0 ≤ c.cfp2) :
    g.gm ≤ c.cfm1 + c.cfm2 ∧ g.gp ≤ c.cfp1 + c.cfp2 := by
  unfold freqGain at h
  simp only [npow_real] at h
  rw [show (1.0 : ℝ) = 1 by norm_num] at h
  obtain ⟨q, hq, h⟩ := bind_eq_ok.1 h
  obtain ⟨a, ha, h⟩ := bind_eq_ok.1 h
  obtain ⟨b, hb, h⟩ := bind_eq_ok.1 h
  rw [pure_ok, ok_inj] at h
  obtain ⟨_, rfl⟩ := pyDiv_eq_ok.1 ha
  obtain ⟨_, rfl⟩ := pyDiv_eq_ok.1 hb
  subst h
  have k : ∀ {x y : ℝ}, 0 ≤ x → x / (y ^ 2 + 1) ≤ x := fun {x y} hx => div_le_self hx (by nlinarith [sq_nonneg y])
  exact ⟨by simpa using k h2, by simpa using k h3⟩

/-- Sizes of the curves of a climate. -/
structure ClimSize (c : Climate ℝ) : Prop where
  vmd : ∀ de, -9.67 ≤ curv c.cv1 c.cv2 c.yv1 c.yv2 c.yv3 de ∧ curv c.cv1 c.cv2 c.yv1 c.yv2 c.yv3 de ≤ 16.76
  gains : 0 ≤ c.cfm2 ∧ 0 ≤ c.cfp2
  sgtm : ∀ de, curv c.csm1 c.csm2 c.ysm1 c.ysm2 c.ysm3 de * (c.cfm1 + c.cfm2) ≤ 20.3
  sgtp : ∃ s, (∀ de, curv c.csp1 c.csp2 c.ysp1 c.ysp2 c.ysp3 de * (c.cfp1 + c.cfp2) ≤ s) ∧
    (s ≤ 29.5 ∧ (c.zd < 3.1 → s * (c.csd1 + (1 - c.csd1) * (c.zd / 3.1)) ≤ 29.5)) ∧
    s ≤ 31.2 ∧ (c.zd < 4.8 → s * (c.csd1 + (1 - c.csd1) * (c.zd / 4.8)) ≤ 31.2)

theorem curv_cap {c1 c2 x1 x2 x3 k B : ℝ} (h1 : 0 ≤ c1) (h2 : 0 ≤ c2) (hk : 0 ≤ k) (hB : (c1 + c2) * k ≤ B) (de : ℝ) :
    curv c1 c2 x1 x2 x3 de * k ≤ B :=
  (mul_le_mul_of_nonneg_right (curv_le h1 h2 x1 x2 x3 de) hk).trans hB

theorem curv_far_cap {c1 c2 x1 x2 x3 k B : ℝ} (h1 : 0 ≤ c1) (h2 : 0 ≤ c2) (hx1 : 0 < x1) (hx3 : 0 < x3) (hk : 0 ≤ k)
    (hB : (c1 + c2 * ((x2 ^ 2 + x3 ^ 2) / x1 ^ 2)) * k ≤ B) (de : ℝ) : curv c1 c2 x1 x2 x3 de * k ≤ B :=
  (mul_le_mul_of_nonneg_right (curv_far h1 h2 hx1 hx3 de) hk).trans hB

theorem curv_pos_range {c1 c2 x1 x2 x3 B : ℝ} (h1 : 0 ≤ c1) (h2 : 0 ≤ c2) (hx1 : 0 < x1) (hx3 : 0 < x3)
    (hB : c1 + c2 ≤ B ∨ c1 + c2 * ((x2 ^ 2 + x3 ^ 2) / x1 ^ 2) ≤ B) (de : ℝ) :
    -9.67 ≤ curv c1 c2 x1 x2 x3 de ∧ curv c1 c2 x1 x2 x3 de ≤ B := by
  have := curv_nonneg h1 h2 x1 x2 x3 de
  refine ⟨by norm_num; linarith, ?_⟩
  rcases hB with h | h
  · exact (curv_le h1 h2 x1 x2 x3 de).trans h
  · exact (curv_far h1 h2 hx1 hx3 de).trans h

theorem curv_neg_range {c1 c2 x1 x2 x3 B : ℝ} (h1 : c1 ≤ 0) (h0 : -9.67 ≤ c1) (h2 : 0 ≤ c2) (hB : c1 + c2 ≤ B) (hB0 : 0 ≤ B) (de : ℝ) :
    -9.67 ≤ curv c1 c2 x1 x2 x3 de ∧ curv c1 c2 x1 x2 x3 de ≤ B :=
  ⟨h0.trans (curv_signed h1 h2 hB hB0 de).1, (curv_signed h1 h2 hB hB0 de).2⟩

theorem climSize {c : Climate ℝ} (h : c ∈ (climates : List (Climate ℝ))) : ClimSize c := by
  simp only [climates, List.mem_cons, List.not_mem_nil, or_false] at h
  rcases h with rfl | rfl | rfl | rfl | rfl | rfl | rfl
  · exact ⟨curv_neg_range (by norm_num) (by norm_num) (by norm_num) (by norm_num) (by norm_num), by norm_num,
      curv_far_cap (by norm_num) (by norm_num) (by norm_num) (by norm_num) (by norm_num) (by norm_num),
      9.1, curv_far_cap (by norm_num) (by norm_num) (by norm_num) (by norm_num) (by norm_num) (by norm_num), by norm_num, by norm_num, by norm_num⟩
  · exact ⟨curv_neg_range (by norm_num) (by norm_num) (by norm_num) (by norm_num) (by norm_num), by norm_num,
      curv_cap (by norm_num) (by norm_num) (by norm_num) (by norm_num),
      27.8, curv_cap (by norm_num) (by norm_num) (by norm_num) (by norm_num), by norm_num, by norm_num, by norm_num⟩
  · exact ⟨curv_pos_range (by norm_num) (by norm_num) (by norm_num) (by norm_num) (by norm_num), by norm_num,
      curv_cap (by norm_num) (by norm_num) (by norm_num) (by norm_num),
      19.7, curv_cap (by norm_num) (by norm_num) (by norm_num) (by norm_num), by norm_num, by norm_num, by norm_num⟩
  · exact ⟨curv_neg_range (by norm_num) (by norm_num) (by norm_num) (by norm_num) (by norm_num), by norm_num,
      curv_cap (by norm_num) (by norm_num) (by norm_num) (by norm_num),
      19, curv_far_cap (by norm_num) (by norm_num) (by norm_num) (by norm_num) (by norm_num) (by norm_num), by norm_num, by norm_num, by norm_num⟩
  · exact ⟨curv_neg_range (by norm_num) (by norm_num) (by norm_num) (by norm_num) (by norm_num), by norm_num,
      curv_cap (by norm_num) (by norm_num) (by norm_num) (by norm_num),
      16, curv_cap (by norm_num) (by norm_num) (by norm_num) (by norm_num), by norm_num, by norm_num, by norm_num⟩
  · exact ⟨curv_neg_range (by norm_num) (by norm_num) (by norm_num) (by norm_num) (by norm_num), by norm_num,
      curv_cap (by norm_num) (by norm_num) (by norm_num) (by norm_num),
      22.55, curv_cap (by norm_num) (by norm_num) (by norm_num) (by norm_num), by norm_num, by norm_num, by norm_num⟩
  · exact ⟨curv_pos_range (by norm_num) (by norm_num) (by norm_num) (by norm_num) (by norm_num), by norm_num,
      curv_far_cap (by norm_num) (by norm_num) (by norm_num) (by norm_num) (by norm_num) (by norm_num),
      16.7, curv_cap (by norm_num) (by norm_num) (by norm_num) (by norm_num), by norm_num, by norm_num, by norm_num⟩

/-- Sizes of the cached coefficients. -/
theorem varCoef_size {c : Climate ℝ} {m : VarMode} {g : FreqGain ℝ} {x dist dh wn : ℝ} {v : VarC ℝ} (hc : c ∈ (climates : List (Climate ℝ)))
    (hg : freqGain c wn = .ok g) (h : varCoef c m g x dist dh wn = .ok v) :
    -9.67 ≤ v.vmd ∧ v.vmd ≤ 16.76 ∧ v.sgtm ≤ 20.3 ∧ sgtR c.zd v 3.1 ≤ 29.5 ∧ sgtR c.zd v 4.8 ≤ 31.2 := by
  have k := climSize hc
  have cg : ClimGood c := by
    simp only [climates, List.mem_cons, List.not_mem_nil, or_false] at hc
    rcases hc with rfl | rfl | rfl | rfl | rfl | rfl | rfl <;> constructor <;> norm_num
  obtain ⟨_, p1, p2⟩ := freqGain_pos cg hg
  obtain ⟨q1, q2⟩ := gain_range hg k.gains.1 k.gains.2
  have VG := (varCoef_good cg p1 p2 h).1
  have hz := VG.zdp
  unfold varCoef at h
  obtain ⟨de, hde, h⟩ := bind_eq_ok.1 h
  obtain ⟨sl, hsl, h⟩ := bind_eq_ok.1 h
  rw [pure_ok, ok_inj] at h
  obtain ⟨s, s1, ⟨s2, s3⟩, s4, s5⟩ := k.sgtp
  have sm : v.sgtm ≤ 20.3 := by
    rw [← h]
    exact (mul_le_mul_of_nonneg_left q1 (curv_nonneg cg.csm1 cg.csm2 _ _ _ _)).trans (k.sgtm de)
  have sp : v.sgtp ≤ s := by
    rw [← h]
    exact (mul_le_mul_of_nonneg_left q2 (curv_nonneg cg.csp1 cg.csp2 _ _ _ _)).trans (s1 de)
  have sd : v.sgtd = v.sgtp * c.csd1 := by rw [← h]
  have far : ∀ {Z B : ℝ}, 0 < Z → s ≤ B → (c.zd < Z → s * (c.csd1 + (1 - c.csd1) * (c.zd / Z)) ≤ B) → sgtR c.zd v Z ≤ B := by
    intro Z B hZ hs hf
    unfold sgtR
    rw [if_neg (by linarith)]
    split_ifs with h1
    · exact sp.trans hs
    · rw [not_le] at h1
      refine le_trans ?_ (hf h1)
      have e : v.sgtd + v.tgtd / Z = v.sgtp * (c.csd1 + (1 - c.csd1) * (c.zd / Z)) := by rw [VG.tgtd, sd]; ring
      rw [e]
      have r1 : c.zd / Z ≤ 1 := by rw [div_le_one hZ]; exact h1.le
      have r0 : 0 ≤ c.zd / Z := by positivity
      refine mul_le_mul_of_nonneg_right sp ?_
      nlinarith [cg.csd1, mul_nonneg cg.csd1 (sub_nonneg.2 r1)]
  have vm : -9.67 ≤ v.vmd ∧ v.vmd ≤ 16.76 := by rw [← h]; exact k.vmd de
  exact ⟨vm.1, vm.2, sm, far (by norm_num) s2 s3, far (by norm_num) s4 s5⟩

/-- How far the quantiles of a dictionary can lie from its reference attenuation. -/
theorem quantile_band {c : Climate ℝ} {m : VarMode} {g : FreqGain ℝ} {x dist dh wn : ℝ} {v : VarC ℝ} (hc : c ∈ (climates : List (Climate ℝ)))
    (hg : freqGain c wn = .ok g) (h : varCoef c m g x dist dh wn = .ok v) (hx : 0 < x) (hd : 0 ≤ dist) (hh : 0 ≤ dh ∨ m.wl = true) (kdv : ℤ) {ar zt zl zc : ℝ}
    (har : 0 ≤ ar) :
    (|zt| ≤ 3.1 → |zl| ≤ 3.1 → |zc| ≤ 3.1 → (-24 ≤ softR (ar - v.vmd - devR kdv c.zd v zt zl zc) ∧ softR (ar - v.vmd - devR kdv c.zd v zt zl zc) ≤ ar + 160) ∧
      (m.wl = true → -21 ≤ softR (ar - v.vmd - devR kdv c.zd v zt zl zc) ∧ softR (ar - v.vmd - devR kdv c.zd v zt zl zc) ≤ ar + 130)) ∧
    (|zt| ≤ 4.8 → |zl| ≤ 4.8 → |zc| ≤ 4.8 → -38.2 ≤ softR (ar - v.vmd - devR kdv c.zd v zt zl zc) ∧
      softR (ar - v.vmd - devR kdv c.zd v zt zl zc) ≤ ar + 255) := by
  obtain ⟨v1, v2, sm, s31, s48⟩ := varCoef_size hc hg h
  have cg : ClimGood c := by
    simp only [climates, List.mem_cons, List.not_mem_nil, or_false] at hc
    rcases hc with rfl | rfl | rfl | rfl | rfl | rfl | rfl <;> constructor <;> norm_num
  obtain ⟨hw, p1, p2⟩ := freqGain_pos cg hg
  obtain ⟨VG, t1, t2, t3, -⟩ := varCoef_good cg p1 p2 h
  have hv := t1 hx hd
  obtain ⟨l0, l1⟩ : 0 ≤ v.sgl ∧ v.sgl < 10 := by
    rcases hh with hh | hh
    · exact t2 hd hh hw.le
    · rw [t3 hh]; norm_num
  have key : ∀ {Z s l wp wm B C : ℝ}, 0 < Z → sgtR c.zd v Z ≤ s → v.sgl ≤ l → 0 ≤ wp → 0 ≤ wm →
      64 + s ^ 2 * (Z ^ 2 / (7.8 + Z ^ 2)) + l ^ 2 * (Z ^ 2 / (24 + Z ^ 2)) ≤ wp ^ 2 →
      64 + 20.3 ^ 2 * (Z ^ 2 / (7.8 + Z ^ 2)) + l ^ 2 * (Z ^ 2 / (24 + Z ^ 2)) ≤ wm ^ 2 →
      0 ≤ 16.76 + Z * (s + l + wp) → (16.76 + Z * (s + l + wp)) / 10 + 2.61 ≤ B → 0 ≤ C → 9.67 + Z * (20.3 + l + wm) ≤ C → |zt| ≤ Z → |zl| ≤ Z → |zc| ≤ Z →
      -B ≤ softR (ar - v.vmd - devR kdv c.zd v zt zl zc) ∧ softR (ar - v.vmd - devR kdv c.zd v zt zl zc) ≤ ar + C := by
    intro Z s l wp wm B C hZ hs hl hp hm hwp hwm h0 hB hC0 hC ht hl' hc'
    rw [abs_le] at ht hl' hc'
    have top := devR_top VG l0 kdv ht.2 hl'.2 hc'.2
    have bot := devR_bot VG l0 kdv ht.1 hl'.1 hc'.1
    have S0 : 0 ≤ sgtR c.zd v Z := by
      have := tdev_mono VG hZ.le
      unfold tdev at this
      rw [mul_zero] at this
      exact nonneg_of_mul_nonneg_left this hZ
    have Sm : sgtR c.zd v (-Z) = v.sgtm := by unfold sgtR; rw [if_pos (by linarith)]
    have T := devR_corner kdv hZ.le (abs_of_pos hZ) S0 hs l0 hl VG.vs0 hv hp hwp
    have Bm := devR_corner kdv hZ.le (by rw [abs_neg, abs_of_pos hZ]) (by rw [Sm]; exact VG.sgtm) (by rw [Sm]; exact sm) l0 hl VG.vs0 hv hm hwm (z := -Z)
      (zd := c.zd)
    rw [abs_le] at T Bm
    constructor
    · have := softR_ge (a := ar - v.vmd - devR kdv c.zd v zt zl zc) (b := 16.76 + Z * (s + l + wp)) (by linarith [T.2]) h0
      linarith
    · exact softR_le (by linarith [Bm.1]) (by linarith)
  refine ⟨fun a b d => ⟨?_, fun e => ?_⟩, fun a b d => ?_⟩
  · exact key (Z := 3.1) (s := 29.5) (l := 10) (wp := 23.95) (wm := 17.9) (by norm_num) s31 l1.le (by norm_num) (by norm_num) (by norm_num) (by norm_num)
      (by norm_num) (by norm_num) (by norm_num) (by norm_num) a b d
  · exact key (Z := 3.1) (s := 29.5) (l := 0) (wp := 23.35) (wm := 17.1) (by norm_num) s31 (t3 e).le (by norm_num) (by norm_num) (by norm_num) (by norm_num)
      (by norm_num) (by norm_num) (by norm_num) (by norm_num) a b d
  · exact key (Z := 4.8) (s := 31.2) (l := 10) (wp := 29) (wm := 20.6) (by norm_num) s48 l1.le (by norm_num) (by norm_num) (by norm_num) (by norm_num)
      (by norm_num) (by norm_num) (by norm_num) (by norm_num) a b d

end Itm
