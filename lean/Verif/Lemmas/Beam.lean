import Verif.Lemmas.Witness
import Verif.Props.C26
import Verif.Props.C65
import Verif.Lemmas.Hill
import Verif.Spec.Clear
import Verif.Spec.EndToEnd
import Verif.Spec.Hastings
import Verif.Model.Runners

/-! The link of a concrete area prediction in the microwave range: 19.08 GHz (wave number 400), both antennas 30 m above terrain of
interdecile height 30 m, sited at random. Beyond its horizon it is in general position. -/

namespace Itm
open Itm.Spec

noncomputable def beamK : ℝ := curvature 301
noncomputable def beamR : ℝ := √(60 / beamK)
noncomputable def beamC : ℝ := Real.exp (-0.07)
/-- The link. -/
noncomputable def beam : Link := roughLink 19080 30 30 30 301 0 0 (lossless 19080 false)

theorem beam_k : 1.1745e-7 ≤ beamK ∧ beamK ≤ 1.1819e-7 := by
  have h1 : Real.exp (301 / 179.3) ≤ 5.4 := by
    have := Real.exp_bound' (x := 0.8395) (by norm_num) (by norm_num) (n := 6) (by norm_num)
    have h3 : Real.exp 0.8395 ≤ 2.3169 := by
      refine this.trans ?_
      simp [Finset.sum_range_succ, Nat.factorial]
      norm_num
    have h2 : Real.exp (301 / 179.3) ≤ Real.exp (0.8395 + 0.8395) := Real.exp_le_exp.2 (by norm_num)
    rw [Real.exp_add] at h2
    have := mul_le_mul h3 h3 (Real.exp_pos _).le (by norm_num)
    norm_num at *; linarith
  have h2 : 5.3 ≤ Real.exp (301 / 179.3) := by
    have := Real.sum_le_exp_of_nonneg (x := 0.839) (by norm_num) 5
    have h3 : 2.305 ≤ Real.exp 0.839 := by
      refine le_trans ?_ this
      simp [Finset.sum_range_succ, Nat.factorial]
      norm_num
    have h2 : Real.exp (0.839 + 0.839) ≤ Real.exp (301 / 179.3) := Real.exp_le_exp.2 (by norm_num)
    rw [Real.exp_add] at h2
    have := mul_le_mul h3 h3 (by norm_num) (Real.exp_pos _).le
    norm_num at *; linarith
  unfold beamK curvature
  generalize Real.exp (301 / 179.3) = e at *
  constructor <;> (norm_num at *; linarith)

theorem beam_kpos : 0 < beamK := lt_of_lt_of_le (by norm_num) beam_k.1

theorem beam_rsq : beamK * beamR ^ 2 = 60 := by
  unfold beamR
  have := beam_kpos
  rw [Real.sq_sqrt (by positivity)]
  field_simp

theorem beam_r : 22500 ≤ beamR ∧ beamR ≤ 22610 := by
  obtain ⟨k1, k2⟩ := beam_k
  have p := beam_kpos
  unfold beamR
  constructor
  · refine Real.le_sqrt_of_sq_le ?_
    rw [le_div_iff₀ p]; norm_num at *; linarith
  · refine Real.sqrt_le_iff.2 ⟨by norm_num, ?_⟩
    rw [div_le_iff₀ p]; norm_num at *; linarith

theorem beam_c : 0.93 ≤ beamC ∧ beamC ≤ 0.935 := by
  unfold beamC
  have h1 := Real.add_one_le_exp (-0.07 : ℝ)
  have h2 := Real.add_one_le_exp (0.07 : ℝ)
  constructor
  · norm_num at *; linarith
  · rw [Real.exp_neg, inv_eq_one_div, div_le_iff₀ (Real.exp_pos _)]
    norm_num at *; linarith

theorem beam_he : beam.he₀ = 30 ∧ beam.he₁ = 30 := by
  constructor <;> (show sitedHeight 0 30 30 = 30) <;> (unfold sitedHeight; rw [if_pos le_rfl])

theorem beam_horizon : roughHorizon beamK 30 30 = beamR * beamC := by
  unfold roughHorizon smoothReach beamR beamC
  rw [show (2 * 30 : ℝ) = 60 by norm_num, show (30 : ℝ) / max 30 5 = 1 by norm_num, Real.sqrt_one, mul_one]

theorem beam_dl : beam.dl₀ = beamR * beamC ∧ beam.dl₁ = beamR * beamC := by
  constructor <;> (show roughHorizon (curvature 301) 30 (sitedHeight 0 30 30) = _) <;>
    (rw [show sitedHeight 0 30 30 = 30 from beam_he.1]; exact beam_horizon)

theorem beam_dla : beam.dla = 2 * (beamR * beamC) := by
  unfold Link.dla; rw [beam_dl.1, beam_dl.2]; ring

theorem beam_dlsa : beam.dlsa = 2 * beamR := by
  unfold Link.dlsa smoothHorizon
  rw [beam_he.1, beam_he.2, show beam.gme = beamK from rfl]
  unfold beamR
  rw [show (2 * 30 : ℝ) = 60 by norm_num]; ring

theorem beam_wn : beam.wn = 400 := by
  show waveNumber 19080 = 400
  unfold waveNumber; norm_num

theorem beam_the : beam.the₀ + beam.the₁ = (39 * (1 / beamC - 1) - 120) / beamR := by
  have hR : 0 < beamR := lt_of_lt_of_le (by norm_num) beam_r.1
  have hC : 0 < beamC := lt_of_lt_of_le (by norm_num) beam_c.1
  have e : ∀ h, h = (30 : ℝ) → roughAngle beamK 30 h = (19.5 * (1 / beamC - 1) - 60) / beamR := by
    rintro h rfl
    unfold roughAngle
    rw [beam_horizon]
    have : smoothReach beamK 30 = beamR := by unfold smoothReach beamR; norm_num
    rw [this, show beamR / (beamR * beamC) = 1 / beamC by field_simp]
    norm_num
  show roughAngle beamK 30 (sitedHeight 0 30 30) + roughAngle beamK 30 (sitedHeight 0 30 30) = _
  rw [e (sitedHeight 0 30 30) beam_he.1, ← add_div]
  congr 1
  norm_num; ring

theorem beam_tha : beam.tha = -beam.dla * beamK := by
  unfold Link.tha
  rw [beam_the, beam_dla, show beam.gme = beamK from rfl]
  refine max_eq_right ?_
  have hR : 0 < beamR := lt_of_lt_of_le (by norm_num) beam_r.1
  have hC : 0 < beamC := lt_of_lt_of_le (by norm_num) beam_c.1
  rw [div_le_iff₀ hR]
  have e : -(2 * (beamR * beamC)) * beamK * beamR = -120 * beamC := by
    have := beam_rsq
    linear_combination (-2 * beamC) * this
  have h1 : 1 / beamC ≤ 1.08 := by rw [div_le_iff₀ hC]; have := beam_c.1; norm_num at *; linarith
  have := beam_c.2
  rw [e]
  norm_num at *; linarith

/-- Bending angle over a distance `s` beyond the horizons. -/
theorem beam_angle (d : ℝ) : beam.tha + d * beam.gme = (d - beam.dla) * beamK := by
  rw [beam_tha, show beam.gme = beamK from rfl]; ring

theorem beam_z : beam.z = ((√14 : ℝ) : ℂ) := by
  show lossless 19080 false = _
  unfold lossless; rw [if_neg (by decide)]

theorem beam_zinv : 0.26 ≤ beam.zInv ∧ beam.zInv ≤ 0.27 := by
  unfold Link.zInv
  rw [beam_z, Complex.norm_real, Real.norm_eq_abs, abs_of_nonneg (Real.sqrt_nonneg _)]
  have h1 : 3.74 ≤ √(14 : ℝ) := Real.le_sqrt_of_sq_le (by norm_num)
  have h2 : √(14 : ℝ) ≤ 3.75 := Real.sqrt_le_iff.2 ⟨by norm_num, by norm_num⟩
  generalize √(14 : ℝ) = s at *
  have p : 0 < s := lt_of_lt_of_le (by norm_num) h1
  constructor
  · rw [le_div_iff₀ p]; norm_num at *; linarith
  · rw [div_le_iff₀ p]; norm_num at *; linarith

/-- Bounds of a cube root. -/
theorem cbrt_bounds {x a b : ℝ} (ha : 0 ≤ a) (hb : 0 ≤ b) (h1 : a ^ 3 ≤ x) (h2 : x ≤ b ^ 3) : a ≤ x ^ (1 / 3 : ℝ) ∧ x ^ (1 / 3 : ℝ) ≤ b := by
  have c : ∀ y : ℝ, 0 ≤ y → (y ^ 3) ^ (1 / 3 : ℝ) = y := by
    intro y hy
    rw [← Real.rpow_natCast, ← Real.rpow_mul hy]; norm_num
  have x0 : 0 ≤ x := le_trans (by positivity) h1
  constructor
  · rw [← c a ha]; exact Real.rpow_le_rpow (by positivity) h1 (by norm_num)
  · conv_rhs => rw [← c b hb]
    exact Real.rpow_le_rpow x0 h2 (by norm_num)

theorem beam_xae : 5600 ≤ beam.xae ∧ beam.xae ≤ 5700 ∧ 400 * beamK ^ 2 * beam.xae ^ 3 = 1 := by
  obtain ⟨k1, k2⟩ := beam_k
  have p := beam_kpos
  have q : 0 < 400 * beamK ^ 2 := by positivity
  have e : beam.xae = (400 * beamK ^ 2)⁻¹ ^ (1 / 3 : ℝ) := by
    unfold Link.xae
    rw [beam_wn, show beam.gme = beamK from rfl, Real.rpow_neg q.le, Real.inv_rpow q.le]
  have s1 := pow_le_pow_left₀ (by norm_num) k1 2
  have s2 := pow_le_pow_left₀ p.le k2 2
  obtain ⟨b1, b2⟩ := cbrt_bounds (x := (400 * beamK ^ 2)⁻¹) (a := 5600) (b := 5700) (by norm_num) (by norm_num)
    (by rw [inv_eq_one_div, le_div_iff₀ q]; norm_num at *; linarith) (by rw [inv_eq_one_div, div_le_iff₀ q]; norm_num at *; linarith)
  rw [← e] at b1 b2
  refine ⟨b1, b2, ?_⟩
  have : beam.xae ^ 3 = (400 * beamK ^ 2)⁻¹ := by
    rw [e, ← Real.rpow_natCast, ← Real.rpow_mul (by positivity)]; norm_num
  rw [this]; exact mul_inv_cancel₀ q.ne'

theorem beam_d3 : beam.d3 = beam.dla + 1.3787 * beam.xae := by
  unfold Link.d3
  refine max_eq_right ?_
  rw [beam_dlsa, beam_dla]
  obtain ⟨r1, r2⟩ := beam_r
  obtain ⟨c1, c2⟩ := beam_c
  obtain ⟨x1, -, -⟩ := beam_xae
  have : beamR * (1 - beamC) ≤ 22610 * 0.07 := mul_le_mul r2 (by norm_num at *; linarith) (by norm_num at *; linarith) (by norm_num)
  norm_num at *; linarith

theorem beam_d4 : beam.d4 = beam.dla + 4.1361 * beam.xae := by
  unfold Link.d4; rw [beam_d3]; ring

theorem beam_dlb : 20925 ≤ beamR * beamC ∧ beamR * beamC ≤ 21150 := by
  obtain ⟨r1, r2⟩ := beam_r
  obtain ⟨c1, c2⟩ := beam_c
  have a := mul_le_mul r1 c1 (by norm_num) (by linarith)
  have b := mul_le_mul r2 c2 (by norm_num at *; linarith) (by norm_num)
  constructor <;> (norm_num at *; linarith)

/-! ### Diffraction -/

theorem beam_knife (dl m : ℝ) : beam.knifeArg dl (beam.dla + m * beam.xae) = 0.0795775 * m ^ 3 * (dl / (m * beam.xae + dl)) := by
  unfold Link.knifeArg
  rw [beam_angle, beam_wn, add_sub_cancel_left]
  have := beam_xae.2.2
  rw [show 0.0795775 * 400 * (m * beam.xae) * (m * beam.xae * beamK) ^ 2 * dl / (m * beam.xae + dl) =
    0.0795775 * m ^ 3 * (400 * beamK ^ 2 * beam.xae ^ 3) * (dl / (m * beam.xae + dl)) by ring, this]
  ring

theorem beam_edges : 0 < beam.knifeArg (beamR * beamC) beam.d3 ∧ beam.knifeArg (beamR * beamC) beam.d3 ≤ beam.knifeArg (beamR * beamC) beam.d4 ∧
    beam.knifeArg (beamR * beamC) beam.d4 < 5.76 := by
  obtain ⟨d1, d2⟩ := beam_dlb
  obtain ⟨x1, x2, -⟩ := beam_xae
  rw [beam_d3, beam_d4, beam_knife, beam_knife]
  generalize beamR * beamC = dl at *
  generalize beam.xae = x at *
  have hd : 0 < dl := by linarith
  have hx : 0 < x := by linarith
  refine ⟨by positivity, ?_, ?_⟩
  · have a : dl / (1.3787 * x + dl) ≤ 1 := by rw [div_le_one (by positivity)]; norm_num; linarith
    have b : (0.4 : ℝ) ≤ dl / (4.1361 * x + dl) := by rw [le_div_iff₀ (by positivity)]; norm_num; linarith
    norm_num at *; linarith
  · have a : dl / (4.1361 * x + dl) ≤ 1 := by rw [div_le_one (by positivity)]; norm_num; linarith
    norm_num at *; linarith

theorem beam_terminal : 900 ≤ terminalArg 400 beam.zInv (beamR * beamC) 30 ∧ terminalArg 400 beam.zInv (beamR * beamC) 30 ≤ 1100 ∧
    1e-4 ≤ terminalK 400 beam.zInv (beamR * beamC) 30 ∧ terminalK 400 beam.zInv (beamR * beamC) 30 ≤ 2e-4 := by
  obtain ⟨d1, d2⟩ := beam_dlb
  obtain ⟨z1, z2⟩ := beam_zinv
  unfold terminalArg terminalK roundedArg
  generalize beamR * beamC = dl at *
  generalize beam.zInv = z at *
  have p : 0 < dl := by linarith
  have e1 : dl / (2 * 30 / dl) * 400 = dl ^ 2 / (2 * 30) * 400 := by field_simp
  rw [e1, add_zero]
  obtain ⟨w1, w2⟩ := cbrt_bounds (x := dl ^ 2 / (2 * 30) * 400) (a := 1425) (b := 1442) (by norm_num) (by norm_num) (by norm_num; nlinarith) (by norm_num; nlinarith)
  generalize (dl ^ 2 / (2 * 30) * 400) ^ (1 / 3 : ℝ) = w at *
  have pw : 0 < w := by linarith
  have k1 : 1e-4 ≤ z / w := by rw [le_div_iff₀ pw]; norm_num at *; linarith
  have k2 : z / w ≤ 2e-4 := by rw [div_le_iff₀ pw]; norm_num at *; linarith
  have t1 : 0.0028 ≤ 2 * 30 / dl := by rw [le_div_iff₀ p]; norm_num at *; linarith
  have t2 : 2 * 30 / dl ≤ 0.0029 := by rw [div_le_iff₀ p]; norm_num at *; linarith
  generalize z / w = k at *
  generalize 2 * 30 / dl = t at *
  have a1 : 1.606 ≤ 1.607 - k := by norm_num at *; linarith
  have a2 : 1.607 - k ≤ 1.607 := by norm_num at *; linarith
  have m1 := mul_le_mul w1 t1 (by norm_num) pw.le
  have m2 := mul_le_mul w2 t2 (le_trans (by norm_num) t1) (by norm_num)
  have n1 := mul_le_mul a1 m1 (by norm_num) (le_trans (by norm_num) a1)
  have n2 := mul_le_mul a2 m2 (le_trans (by norm_num) m1) (by norm_num)
  have e : (1.607 - k) * 151 * w * t = 151 * ((1.607 - k) * (w * t)) := by ring
  rw [e]
  refine ⟨?_, ?_, k1, k2⟩ <;> (norm_num at *; linarith)

theorem beam_diff : beam.DiffClear := by
  obtain ⟨v1, v2, v3⟩ := beam_edges
  obtain ⟨x1, x2, k1, k2⟩ := beam_terminal
  have gc : GainClear (terminalArg 400 beam.zInv (beamR * beamC) 30) (terminalK 400 beam.zInv (beamR * beamC) 30) := by
    generalize terminalArg 400 beam.zInv (beamR * beamC) 30 = x at *
    generalize terminalK 400 beam.zInv (beamR * beamC) 30 = k at *
    refine ⟨by intro h; norm_num at *; linarith, by intro h; norm_num at *; linarith, by intro h; norm_num at *; linarith,
      by intro h; norm_num at *; linarith, ?_⟩
    have h : Real.log k ≤ -6 := by
      have pk : 0 < k := lt_of_lt_of_le (by norm_num) k1
      have h1 := Real.log_le_log pk k2
      have := log_ge_pow2 (y := 5000) 11 (by norm_num)
      have l := log2_bounds.1
      rw [show (2e-4 : ℝ) = (5000 : ℝ)⁻¹ by norm_num, Real.log_inv] at h1
      norm_num at *; linarith
    have h' : (6 : ℝ) ≤ -Real.log k := by linarith
    have c := pow_le_pow_left₀ (by norm_num) h' 3
    have := mul_le_mul x1 c (by norm_num) (by linarith)
    refine ne_of_gt (lt_of_lt_of_le (by norm_num) this)
  constructor
  · rw [beam_wn, beam_dl.1, beam_he.1]; exact gc
  · rw [beam_wn, beam_dl.2, beam_he.2]; exact gc
  · rw [beam_dl.1]; exact ne_of_lt (by linarith)
  · rw [beam_dl.2]; exact ne_of_lt (by linarith)
  · rw [beam_dl.1]; exact ne_of_lt v3
  · rw [beam_dl.2]; exact ne_of_lt v3

theorem beam_weight {d : ℝ} (hd : 49000 ≤ d) : diffWeight beam.wn beam.dh beam.wd1 beam.xd1 d = 25.1 / (25.1 + √6283.2) := by
  have x : beam.xd1 = 0 := by
    unfold Link.xd1
    rw [beam_tha, show beam.gme = beamK from rfl]
    have := beam_kpos.ne'
    field_simp
    ring
  have w : beam.wd1 = 1 := by
    unfold Link.wd1
    rw [beam_he.1, beam_he.2, show beam.hg₀ = 30 from rfl, show beam.hg₁ = 30 from rfl, sub_self, zero_div, add_zero, Real.sqrt_one]
  have hE : Real.exp (-d / 50000) ≤ 0.51 := by
    have h1 : Real.exp (-d / 50000) ≤ Real.exp (-0.98) := Real.exp_le_exp.2 (by rw [div_le_iff₀ (by norm_num)]; norm_num; linarith)
    have h2 := Real.add_one_le_exp (0.98 : ℝ)
    refine h1.trans ?_
    rw [Real.exp_neg, inv_eq_one_div, div_le_iff₀ (Real.exp_pos _)]
    norm_num at *; linarith
  unfold diffWeight irregularity
  rw [x, w, zero_div, add_zero, one_mul, beam_wn, show beam.dh = 30 from rfl, min_eq_right]
  norm_num at *; linarith

theorem beam_md : 5e-4 < beam.md := by
  obtain ⟨d1, d2⟩ := beam_dlb
  obtain ⟨x1, x2, x3⟩ := beam_xae
  obtain ⟨k1, k2⟩ := beam_k
  obtain ⟨z1, z2⟩ := beam_zinv
  obtain ⟨v1, v2, v3⟩ := beam_edges
  obtain ⟨t1, -, -, -⟩ := beam_terminal
  have p := beam_kpos
  have ex : 1800 ≤ beam.xht := by
    unfold Link.xht
    rw [beam_wn, beam_dl.1, beam_dl.2, beam_he.1, beam_he.2]; linarith
  have l3 : 49000 ≤ beam.d3 := by rw [beam_d3, beam_dla]; norm_num; linarith
  have l4 : 49000 ≤ beam.d4 := by rw [beam_d4, beam_dla]; norm_num; linarith
  have dk : ∀ d, doubleKnife beam.wn (d - beam.dla) (beam.tha + d * beam.gme) beam.dl₀ beam.dl₁ =
      2 * knifeEdge (clampV2 (beam.knifeArg (beamR * beamC) d)) := by
    intro d
    unfold doubleKnife Link.knifeArg
    rw [beam_dl.1, beam_dl.2]; ring
  have kn : knifeEdge (clampV2 (beam.knifeArg (beamR * beamC) beam.d3)) ≤ knifeEdge (clampV2 (beam.knifeArg (beamR * beamC) beam.d4)) := by
    unfold clampV2
    rw [if_neg (not_le.2 v1), if_neg (not_le.2 (lt_of_lt_of_le v1 v2))]
    have := knifeEdge_low_mono v1.le v2 v3.le
    unfold knifeEdge
    rw [if_pos (lt_of_le_of_lt v2 v3), if_pos v3]
    linarith
  obtain ⟨w1, w2⟩ := cbrt_bounds (x := 400 / beamK) (a := 1500) (b := 1506) (by norm_num) (by norm_num)
    (by rw [le_div_iff₀ p]; norm_num at *; linarith) (by rw [div_le_iff₀ p]; norm_num at *; linarith)
  have ra : ∀ m, 0 < m → roundedArg beam.wn (beam.dla + m * beam.xae - beam.dla) (beam.tha + (beam.dla + m * beam.xae) * beam.gme) beam.zInv beam.xht =
      (1.607 - beam.zInv / (400 / beamK) ^ (1 / 3 : ℝ)) * 151 * ((400 / beamK) ^ (1 / 3 : ℝ) * beamK * beam.xae) * m + beam.xht := by
    intro m hm
    have hx : 0 < beam.xae := by linarith
    unfold roundedArg
    rw [beam_angle, beam_wn, add_sub_cancel_left, show m * beam.xae / (m * beam.xae * beamK) * 400 = 400 / beamK by field_simp]
    ring
  generalize (400 / beamK) ^ (1 / 3 : ℝ) = W at *
  have pW : 0 < W := by linarith
  have q2 : beam.zInv / W ≤ 2e-4 := by rw [div_le_iff₀ pW]; norm_num at *; linarith
  have q1 : 0 ≤ beam.zInv / W := div_nonneg (le_trans (by norm_num) z1) pW.le
  have a1 : 0.98 ≤ W * beamK * beam.xae := by
    have := mul_le_mul (mul_le_mul w1 k1 (by norm_num) pW.le) x1 (by norm_num) (by positivity)
    norm_num at *; linarith
  have a2 : W * beamK * beam.xae ≤ 1.02 := by
    have := mul_le_mul (mul_le_mul w2 k2 p.le (by norm_num)) x2 (by linarith) (by norm_num)
    norm_num at *; linarith
  have b1 : 237 ≤ (1.607 - beam.zInv / W) * 151 * (W * beamK * beam.xae) := by
    have := mul_le_mul (show (1.606 * 151 : ℝ) ≤ (1.607 - beam.zInv / W) * 151 by norm_num at *; linarith) a1 (by norm_num) (by norm_num at *; linarith)
    norm_num at *; linarith
  have b2 : (1.607 - beam.zInv / W) * 151 * (W * beamK * beam.xae) ≤ 248 := by
    have := mul_le_mul (show (1.607 - beam.zInv / W) * 151 ≤ (1.607 * 151 : ℝ) by norm_num at *; linarith) a2 (le_trans (by norm_num) a1) (by norm_num)
    norm_num at *; linarith
  have rise : 35 ≤ roundedEarth beam.wn (beam.d4 - beam.dla) (beam.tha + beam.d4 * beam.gme) beam.zInv beam.xht beam.aht -
      roundedEarth beam.wn (beam.d3 - beam.dla) (beam.tha + beam.d3 * beam.gme) beam.zInv beam.xht beam.aht := by
    unfold roundedEarth
    rw [beam_d3, beam_d4, ra _ (by norm_num), ra _ (by norm_num)]
    generalize (1.607 - beam.zInv / W) * 151 * (W * beamK * beam.xae) = B at *
    generalize beam.xht = X at *
    have c3 : 0 < B * 1.3787 + X := by norm_num at *; linarith
    have c4 : 0 < B * 4.1361 + X := by norm_num at *; linarith
    have lg := Real.log_le_sub_one_of_pos (x := (B * 4.1361 + X) / (B * 1.3787 + X)) (by positivity)
    rw [Real.log_div c4.ne' c3.ne'] at lg
    have : (B * 4.1361 + X) / (B * 1.3787 + X) ≤ 1.4 := by rw [div_le_iff₀ c3]; norm_num at *; linarith
    generalize Real.log (B * 4.1361 + X) = L4 at *
    generalize Real.log (B * 1.3787 + X) = L3 at *
    generalize (B * 4.1361 + X) / (B * 1.3787 + X) = Q at *
    norm_num at *; linarith
  have wt : (0.24 : ℝ) ≤ 25.1 / (25.1 + √6283.2) ∧ 25.1 / (25.1 + √6283.2) ≤ (1 : ℝ) := by
    have s1 : √(6283.2 : ℝ) ≤ 79.3 := Real.sqrt_le_iff.2 ⟨by norm_num, by norm_num⟩
    have s0 := Real.sqrt_nonneg (6283.2 : ℝ)
    generalize √(6283.2 : ℝ) = s at *
    have : 0 < 25.1 + s := by norm_num at *; linarith
    constructor
    · rw [le_div_iff₀ this]; norm_num at *; linarith
    · rw [div_le_one this]; norm_num at *; linarith
  have hD : 8.3 ≤ beam.diffraction beam.d4 - beam.diffraction beam.d3 := by
    unfold Link.diffraction
    dsimp only
    rw [beam_weight l3, beam_weight l4, dk, dk]
    generalize roundedEarth beam.wn (beam.d4 - beam.dla) (beam.tha + beam.d4 * beam.gme) beam.zInv beam.xht beam.aht = R4 at *
    generalize roundedEarth beam.wn (beam.d3 - beam.dla) (beam.tha + beam.d3 * beam.gme) beam.zInv beam.xht beam.aht = R3 at *
    generalize knifeEdge (clampV2 (beam.knifeArg (beamR * beamC) beam.d3)) = K3 at *
    generalize knifeEdge (clampV2 (beam.knifeArg (beamR * beamC) beam.d4)) = K4 at *
    generalize 25.1 / (25.1 + √(6283.2 : ℝ)) = w at *
    generalize clutter beam.wn beam.dh beam.hg₀ beam.hg₁ beam.dlsa = cl
    have m1 := mul_le_mul wt.1 rise (by norm_num) (le_trans (by norm_num) wt.1)
    have m2 : 0 ≤ (1 - w) * (K4 - K3) := mul_nonneg (by linarith) (by linarith)
    norm_num at *; linarith
  unfold Link.md
  have e : beam.d4 - beam.d3 = 2.7574 * beam.xae := by rw [beam_d4, beam_d3]; ring
  rw [e, lt_div_iff₀ (by linarith)]
  generalize beam.diffraction beam.d4 - beam.diffraction beam.d3 = D at *
  norm_num at *; linarith

/-! ### Scatter -/

/-- The link as the inputs of `lrprop`. -/
noncomputable def beamIn : LrIn ℝ :=
  { hg := ⟨30, 30⟩, he := ⟨30, 30⟩, dl := ⟨beam.dl₀, beam.dl₁⟩, the := ⟨beam.the₀, beam.the₁⟩, wn := 400, dh := 30, ens := 301, gme := beamK,
    zgnd := ⟨√14, 0⟩ }

theorem beam_eq : linkOf (blank 1 beamIn) = beam := by
  have h := beam_he
  have w := beam_wn
  have z := beam_z
  unfold beam at *
  unfold linkOf
  rw [Link.mk.injEq]
  exact ⟨rfl, rfl, h.1.symm, h.2.symm, rfl, rfl, rfl, rfl, w.symm, rfl, rfl, rfl, z.symm, rfl⟩

theorem beam_scatter {d : ℝ} (h1 : 241000 ≤ d) : 0.0229 ≤ beam.scatterAngle d ∧ beam.scatterAngle d ≤ d * beamK - 0.005 := by
  unfold Link.scatterAngle
  rw [beam_the, show beam.gme = beamK from rfl]
  obtain ⟨r1, r2⟩ := beam_r
  obtain ⟨c1, c2⟩ := beam_c
  obtain ⟨k1, k2⟩ := beam_k
  have hR : 0 < beamR := by linarith
  have hC : 0 < beamC := lt_of_lt_of_le (by norm_num) c1
  have i1 : 1 ≤ 1 / beamC := by rw [le_div_iff₀ hC]; norm_num at *; linarith
  have i2 : 1 / beamC ≤ 1.08 := by rw [div_le_iff₀ hC]; norm_num at *; linarith
  generalize 1 / beamC = i at *
  have a1 : -0.00534 ≤ (39 * (i - 1) - 120) / beamR := by rw [le_div_iff₀ hR]; norm_num at *; linarith
  have a2 : (39 * (i - 1) - 120) / beamR ≤ -0.005 := by rw [div_le_iff₀ hR]; norm_num at *; linarith
  generalize (39 * (i - 1) - 120) / beamR = a at *
  have m := mul_le_mul h1 k1 (by norm_num) (by linarith)
  constructor <;> (norm_num at *; linarith)

theorem beam_gain {d : ℝ} (hd : 241000 ≤ d) : 0 ≤ beam.scatterGain d ∧ beam.scatterGain d ≤ 3 := by
  have hth := (beam_scatter hd).1
  have er : beam.rr = 1 := by
    unfold Link.rr
    rw [beam_he.1, beam_he.2]
    norm_num
  have ea : beam.ad = 0 := by
    unfold Link.ad
    rw [beam_dl.1, beam_dl.2]
    norm_num
  have eq : (-1 : ℝ) ≤ 0.031 - 0.00232 * (blank 1 beamIn).ens + 5.67e-6 * (blank 1 beamIn).ens ^ 2 := by
    show (-1 : ℝ) ≤ 0.031 - 0.00232 * 301 + 5.67e-6 * 301 ^ 2
    norm_num
  have hth' : (0.0229 : ℝ) ≤ (blank 0 beamIn).the.x0 + (blank 0 beamIn).the.x1 + d * (blank 0 beamIn).gme := hth
  obtain ⟨h, hh, h0, hb⟩ := ascatH0_ok (d := d) (p := blank 0 beamIn)
    (s := ⟨beam.ad, beam.rr, 0.031 - 0.00232 * (blank 1 beamIn).ens + 5.67e-6 * (blank 1 beamIn).ens ^ 2, -15⟩) (show (0 : ℝ) < 400 by norm_num)
    (show (0 : ℝ) < 30 by norm_num) (show (0 : ℝ) < 30 by norm_num)
    (lt_of_lt_of_le (by norm_num) hth') (by rw [ea]) (by show beam.ad < d; rw [ea]; linarith) (by show 0 < beam.rr; rw [er]; norm_num) eq
  have ev := Props.ascatH0_spec (p := blank 1 beamIn) (s := ⟨beam.ad, beam.rr, 0.031 - 0.00232 * (blank 1 beamIn).ens + 5.67e-6 * (blank 1 beamIn).ens ^ 2, -15⟩)
    (by rw [beam_eq]) (by rw [beam_eq]) rfl hh
  rw [if_neg (by norm_num), beam_eq] at ev
  rw [← ev]
  refine ⟨h0, hb.trans (max_le (h0Bound_small (y := 24000 * ((blank 0 beamIn).the.x0 + (blank 0 beamIn).the.x1 + d * (blank 0 beamIn).gme)) ?_ ?_ ?_) (by norm_num))⟩
  · norm_num at hth' ⊢; linarith
  · show 2.0 * 400 * _ * 30 = _
    norm_num; ring
  · show 2.0 * 400 * _ * 30 = _
    norm_num; ring

theorem beam_z0 {d : ℝ} (hd : 241000 ≤ d) : beam.z0 d = d * beam.scatterAngle d / 4 := by
  have ea : beam.ad = 0 := by
    unfold Link.ad
    rw [beam_dl.1, beam_dl.2]
    norm_num
  have : d ≠ 0 := by linarith
  unfold Link.z0
  rw [ea]
  field_simp
  ring

theorem beam_d5 : beam.d5 = beam.dla + 200000 ∧ 241000 ≤ beam.d5 ∧ beam.d5 ≤ 243000 := by
  have e : beam.d5 = beam.dla + 200000 := rfl
  rw [e, beam_dla]
  obtain ⟨d1, d2⟩ := beam_dlb
  refine ⟨rfl, ?_, ?_⟩ <;> linarith

theorem beam_d6 : beam.d6 = beam.dla + 400000 ∧ 441000 ≤ beam.d6 ∧ beam.d6 ≤ 443000 := by
  have e : beam.d6 = beam.dla + 400000 := rfl
  rw [e, beam_dla]
  obtain ⟨d1, d2⟩ := beam_dlb
  refine ⟨rfl, ?_, ?_⟩ <;> linarith

theorem beam_eta5 : beam.eta beam.d5 < 1 := by
  obtain ⟨-, l1, l2⟩ := beam_d5
  obtain ⟨s1, s2⟩ := beam_scatter l1
  obtain ⟨k1, k2⟩ := beam_k
  have z : beam.z0 beam.d5 ≤ 1600 := by
    rw [beam_z0 l1]
    have m1 := mul_le_mul l2 k2 beam_kpos.le (by norm_num)
    have : beam.scatterAngle beam.d5 ≤ 0.026 := by norm_num at *; linarith
    have := mul_le_mul l2 this (le_trans (by norm_num) s1) (by norm_num)
    norm_num at *; linarith
  have z1 : 0 ≤ beam.z0 beam.d5 := by
    rw [beam_z0 l1]
    have : 0 ≤ beam.scatterAngle beam.d5 := le_trans (by norm_num) s1
    positivity
  unfold Link.eta
  have hE0 := Real.exp_pos (-(min 1.7 (beam.z0 beam.d5 / 8000)) ^ 6)
  rw [show beam.ens = 301 from rfl]
  generalize Real.exp (-(min 1.7 (beam.z0 beam.d5 / 8000)) ^ 6) = E at *
  generalize beam.z0 beam.d5 = Z at *
  have a : Z / 1755.6 ≤ 0.95 := by rw [div_le_iff₀ (by norm_num)]; norm_num at *; linarith
  have a0 : 0 ≤ Z / 1755.6 := by positivity
  have b : 1 + (0.031 - 0.00232 * 301 + 5.67e-6 * 301 ^ 2) * E ≤ 1 := by norm_num; linarith
  generalize 1 + (0.031 - 0.00232 * 301 + 5.67e-6 * 301 ^ 2) * E = Y at *
  generalize Z / 1755.6 = X at *
  norm_num at *
  nlinarith

theorem beam_eta6 : 1 < beam.eta beam.d6 := by
  obtain ⟨-, l1, l2⟩ := beam_d6
  obtain ⟨s1, s2⟩ := beam_scatter (d := beam.d6) (by linarith)
  have z : 2520 ≤ beam.z0 beam.d6 := by
    rw [beam_z0 (by linarith)]
    have := mul_le_mul l1 s1 (by norm_num) (by linarith)
    norm_num at *; linarith
  unfold Link.eta
  have hE : Real.exp (-(min 1.7 (beam.z0 beam.d6 / 8000)) ^ 6) ≤ 1 := by
    refine Real.exp_le_one_iff.2 ?_
    rw [neg_nonpos]
    positivity
  rw [show beam.ens = 301 from rfl]
  generalize Real.exp (-(min 1.7 (beam.z0 beam.d6 / 8000)) ^ 6) = E at *
  have b : (0.84 : ℝ) ≤ 1 + (0.031 - 0.00232 * 301 + 5.67e-6 * 301 ^ 2) * E := by norm_num; linarith
  have a : (1.28 : ℝ) ≤ beam.z0 beam.d6 / 1755.6 := by rw [le_div_iff₀ (by norm_num)]; norm_num; linarith
  have := mul_le_mul a b (by norm_num) (le_trans (by norm_num) a)
  exact lt_of_lt_of_le (by norm_num) this

theorem beam_ok {d : ℝ} (hd : 241000 ≤ d) : 0.2 < beam.scatterR beam.he₀ d := by
  unfold Link.scatterR
  rw [beam_wn, beam_he.1]
  have := (beam_scatter hd).1
  norm_num at *; linarith

/-- Bending angle times distance at the two distances of the scatter line. -/
theorem beam_th5 : 5600 ≤ (beam.tha + beam.d5 * beam.gme) * beam.d5 ∧ (beam.tha + beam.d5 * beam.gme) * beam.d5 ≤ 5800 ∧
    0.0234 ≤ beam.tha + beam.d5 * beam.gme ∧ beam.tha + beam.d5 * beam.gme ≤ 0.0237 := by
  obtain ⟨e, l1, l2⟩ := beam_d5
  obtain ⟨k1, k2⟩ := beam_k
  have t : beam.tha + beam.d5 * beam.gme = 200000 * beamK := by rw [beam_angle, e]; ring
  rw [t]
  have p := beam_kpos
  have m1 := mul_le_mul k1 l1 (by norm_num) p.le
  have m2 := mul_le_mul k2 l2 (by linarith) (by norm_num)
  refine ⟨?_, ?_, ?_, ?_⟩ <;> (norm_num at *; linarith)

theorem beam_th6 : 20000 ≤ (beam.tha + beam.d6 * beam.gme) * beam.d6 ∧ (beam.tha + beam.d6 * beam.gme) * beam.d6 ≤ 21000 ∧
    0.0469 ≤ beam.tha + beam.d6 * beam.gme ∧ beam.tha + beam.d6 * beam.gme ≤ 0.0474 := by
  obtain ⟨e, l1, l2⟩ := beam_d6
  obtain ⟨k1, k2⟩ := beam_k
  have t : beam.tha + beam.d6 * beam.gme = 400000 * beamK := by rw [beam_angle, e]; ring
  rw [t]
  have p := beam_kpos
  have m1 := mul_le_mul k1 l1 (by norm_num) p.le
  have m2 := mul_le_mul k2 l2 (by linarith) (by norm_num)
  refine ⟨?_, ?_, ?_, ?_⟩ <;> (norm_num at *; linarith)

theorem beam_gain5 : beam.gain5 = beam.scatterGain beam.d5 := by
  unfold Link.gain5
  have g5 := (beam_gain beam_d5.2.1).2
  have g6 := (beam_gain (d := beam.d6) (by linarith [beam_d6.2.1])).2
  rw [if_neg (by rintro (h | h) <;> linarith)]

theorem beam_a5 : 60 ≤ beam.a5 ∧ beam.a5 ≤ 140 := by
  obtain ⟨g0, g1⟩ := beam_gain beam_d5.2.1
  obtain ⟨u1, u2, t1, t2⟩ := beam_th5
  unfold Link.a5
  rw [beam_gain5]
  unfold Link.scatterAtt scatterCurve
  dsimp only
  generalize beam.tha + beam.d5 * beam.gme = t at *
  generalize beam.scatterGain beam.d5 = g at *
  rw [show beam.ens = 301 from rfl, beam_wn, sub_self, mul_zero, zero_mul, if_pos (by linarith)]
  generalize t * beam.d5 = u at *
  have l1 := Real.log_nonneg (x := u) (by linarith)
  have l2 := log_le_pow2 (y := u) 13 (by linarith)
  obtain ⟨b1, b2⟩ := log2_bounds
  have q1 := pow_le_pow_left₀ (by norm_num) t1 4
  have q2 := pow_le_pow_left₀ (le_trans (by norm_num) t1) t2 4
  have n1 : 0 < 47.7 * 400 * t ^ 4 := by norm_num at *; linarith
  have m2 := Real.log_nonpos (x := 47.7 * 400 * t ^ 4) n1.le (by norm_num at *; linarith)
  have m1 : -7 ≤ Real.log (47.7 * 400 * t ^ 4) := by
    have h := Real.log_le_log (x := 0.005) (by norm_num) (show 0.005 ≤ 47.7 * 400 * t ^ 4 by norm_num at *; linarith)
    have := log_le_pow2 (y := 200) 8 (by norm_num)
    rw [show (0.005 : ℝ) = (200 : ℝ)⁻¹ by norm_num, Real.log_inv] at h
    norm_num at *; linarith
  generalize Real.log (47.7 * 400 * t ^ 4) = B at *
  generalize Real.log u = A at *
  generalize Real.log 2 = T at *
  clear q1 q2 n1
  constructor <;> (norm_num at *; linarith)

theorem beam_a6 : beam.a6 ≤ 113 := by
  obtain ⟨g0, g1⟩ := beam_gain (d := beam.d6) (by linarith [beam_d6.2.1])
  obtain ⟨u1, u2, t1, t2⟩ := beam_th6
  unfold Link.a6 Link.scatterAtt scatterCurve
  dsimp only
  generalize beam.tha + beam.d6 * beam.gme = t at *
  generalize beam.scatterGain beam.d6 = g at *
  rw [show beam.ens = 301 from rfl, beam_wn, sub_self, mul_zero, zero_mul, if_neg (by linarith), if_pos (by linarith)]
  generalize t * beam.d6 = u at *
  have l1 := Real.log_nonneg (x := u) (by linarith)
  have q1 := pow_le_pow_left₀ (by norm_num) t1 4
  have q2 := pow_le_pow_left₀ (le_trans (by norm_num) t1) t2 4
  have m2 := Real.log_nonpos (x := 47.7 * 400 * t ^ 4) (by norm_num at *; linarith) (by norm_num at *; linarith)
  generalize Real.log (47.7 * 400 * t ^ 4) = B at *
  generalize Real.log u = A at *
  norm_num at *; linarith

theorem beam_slopes : beam.ms < beam.md := by
  refine lt_of_le_of_lt ?_ beam_md
  unfold Link.ms
  rw [beam_d5.1, beam_d6.1, div_le_iff₀ (by linarith)]
  have := beam_a5.1
  have := beam_a6
  norm_num at *; linarith

theorem beam_notParallel : ¬ beam.Parallel := by
  rintro ⟨-, h⟩
  have e := (Link.gain5'_eq (L := beam) (.inl (beam_ok (by linarith [beam_d6.2.1])).le)).2
  rw [e] at h
  exact beam_slopes.ne' h

/-- Beyond its horizon the link is in general position. -/
theorem beam_clear {d : ℝ} (hd : 46000 ≤ d) : beam.Clear d := by
  have hs : beam.dlsa < d := by rw [beam_dlsa]; linarith [beam_r.2]
  refine ⟨beam_diff, hs.ne', fun h => absurd h (not_lt.2 hs.le), fun _ => ⟨?_, ?_, .inr (beam_he.1.trans beam_he.2.symm), ?_, ?_⟩⟩
  · have l := beam_d5.2.1
    obtain ⟨u1, u2, -, -⟩ := beam_th5
    exact ⟨.inl (beam_ok l), beam_eta5.ne, ne_of_lt (by linarith [(beam_gain l).2]), ne_of_lt (by linarith), ne_of_lt (by linarith)⟩
  · have l : 241000 ≤ beam.d6 := by linarith [beam_d6.2.1]
    obtain ⟨u1, u2, -, -⟩ := beam_th6
    exact ⟨.inl (beam_ok l), beam_eta6.ne', ne_of_lt (by linarith [(beam_gain l).2]), ne_of_gt (by linarith), ne_of_lt (by linarith)⟩
  · intro h
    have := (beam_gain beam_d5.2.1).2
    linarith
  · exact ne_of_lt (by linarith [beam_a5.2])

end Itm

namespace Itm
open Itm.Spec

/-! ### Levels -/

theorem log_ten_bounds : 2.302584 ≤ Real.log 10 ∧ Real.log 10 ≤ 2.302586 := by
  have h := Real.abs_log_sub_add_sum_range_le (x := -0.024) (by norm_num [abs_lt]) 3
  have e : Real.log (1 - -0.024) = 10 * Real.log 2 - 3 * Real.log 10 := by
    rw [← Real.log_rpow (by norm_num), ← Real.log_rpow (by norm_num), ← Real.log_div (by positivity) (by positivity)]
    norm_num
  rw [e] at h
  have l1 := Real.log_two_gt_d9
  have l2 := Real.log_two_lt_d9
  rw [abs_le] at h
  simp only [Finset.sum_range_succ, Finset.sum_range_zero] at h
  generalize Real.log 10 = T at *
  generalize Real.log 2 = U at *
  norm_num [abs_of_neg] at *
  obtain ⟨h1, h2⟩ := h
  constructor <;> linarith

theorem hastings_tenth : 12816.5 < hastings (1 / 10) * 10000 ∧ hastings (1 / 10) * 10000 < 12817.5 := by
  obtain ⟨l1, l2⟩ := log_ten_bounds
  unfold hastings
  dsimp only
  have e : -2 * Real.log (1 / 10) = 2 * Real.log 10 := by rw [one_div, Real.log_inv]; ring
  rw [e]
  have r1 : 2.145965 ≤ √(2 * Real.log 10) := Real.le_sqrt_of_sq_le (by norm_num at *; linarith)
  have r2 : √(2 * Real.log 10) ≤ 2.145967 := Real.sqrt_le_iff.2 ⟨by norm_num, by norm_num at *; linarith⟩
  generalize √(2 * Real.log 10) = r at *
  have s1 := pow_le_pow_left₀ (by norm_num) r1 2
  have s2 := pow_le_pow_left₀ (le_trans (by norm_num) r1) r2 2
  have t1 := pow_le_pow_left₀ (by norm_num) r1 3
  have t2 := pow_le_pow_left₀ (le_trans (by norm_num) r1) r2 3
  generalize r ^ 2 = r2' at *
  generalize r ^ 3 = r3 at *
  have p : 0 < 1 + 1.432788 * r + 0.189269 * r2' + 0.001308 * r3 := by norm_num at *; linarith
  have u : (2.515516698 + 0.802853 * r + 0.010328 * r2') / (1 + 1.432788 * r + 0.189269 * r2' + 0.001308 * r3) ≤ 0.8643 := by
    rw [div_le_iff₀ p]; norm_num at *; linarith
  have v : 0.86423 ≤ (2.515516698 + 0.802853 * r + 0.010328 * r2') / (1 + 1.432788 * r + 0.189269 * r2' + 0.001308 * r3) := by
    rw [le_div_iff₀ p]; norm_num at *; linarith
  generalize (2.515516698 + 0.802853 * r + 0.010328 * r2') / (1 + 1.432788 * r + 0.189269 * r2' + 0.001308 * r3) = f at *
  constructor <;> (norm_num at *; linarith)

theorem untied_tenth {q : ℝ} (h : tailOf q = 1 / 10) : Untied q := by
  obtain ⟨h1, h2⟩ := hastings_tenth
  refine .inr fun k e => ?_
  rw [h] at e
  rw [e] at h1 h2
  have a : (12816 : ℝ) < k := by norm_num at *; linarith
  have b : (k : ℝ) < 12817 := by norm_num at *; linarith
  have a' : (12816 : ℤ) < k := by exact_mod_cast a
  have b' : k < (12817 : ℤ) := by exact_mod_cast b
  omega

theorem untied_area : ∀ x ∈ areaQc, Untied ((x : ℝ) / 100) := by
  intro x hx
  simp only [areaQc, List.mem_cons, List.not_mem_nil, or_false] at hx
  rcases hx with rfl | rfl | rfl
  · left; norm_num
  · exact untied_tenth (by unfold tailOf; norm_num [abs_of_neg])
  · exact untied_tenth (by unfold tailOf; norm_num [abs_of_pos])

end Itm
