import Verif.Lemmas.Mesa

/-! A link of the measurement campaign: 2.488 GHz from an antenna of 2.56 m to one of 10 to 130 m, with a tableland of 1000 m between
them. It is in general position beyond its horizon, whatever the height of the second antenna. -/

namespace Itm
open Itm.Spec

/-- The frequency gain is at most 3 dB once both scatter parameters reach 20. -/
theorem h0Bound_two {r : ℝ × ℝ × ℝ} (h1 : 20 ≤ r.2.1) (h2 : 20 ≤ r.2.2) : h0Bound r ≤ 3 := by
  obtain ⟨_, a, b⟩ := r
  dsimp only at h1 h2
  have inv : ∀ y : ℝ, 20 ≤ y → 0 < 1 / y ∧ 1 / y ≤ 1 / 20 := fun y hy => ⟨by positivity, one_div_le_one_div_of_le (by norm_num) hy⟩
  have row : ∀ y : ℝ, 20 ≤ y → rowR 4 ((1.0 / y) ^ 2) ≤ 1.4 := by
    intro y hy
    obtain ⟨p, q⟩ := inv y hy
    unfold rowR
    simp only [rowA, rowB]
    rw [show (1.0 : ℝ) = 1 by norm_num]
    have h2 : (1 / y) ^ 2 ≤ 1 / 400 := by nlinarith
    have h20 : 0 ≤ (1 / y) ^ 2 := sq_nonneg _
    generalize (1 / y) ^ 2 = u at *
    have := Real.log_le_sub_one_of_pos (x := (705.0 * u + 105.0) * u + 1) (by positivity)
    have : (705.0 * u + 105.0) * u ≤ 0.268 := by norm_num; nlinarith
    norm_num at *; linarith
  unfold h0Bound
  dsimp only
  refine max_le ?_ ?_
  · have := row a h1
    have := row b h2
    norm_num at *; linarith
  · obtain ⟨p1, q1⟩ := inv a h1
    obtain ⟨p2, q2⟩ := inv b h2
    rw [show 1.4142 / a = 1.4142 * (1 / a) by ring, show 1.4142 / b = 1.4142 * (1 / b) by ring]
    have k1 := Real.log_le_sub_one_of_pos (x := (1 + 1.4142 * (1 / a) : ℝ)) (by positivity)
    have k2 := Real.log_le_sub_one_of_pos (x := (1 + 1.4142 * (1 / b) : ℝ)) (by positivity)
    rw [Real.log_pow, Real.log_mul (by positivity) (by positivity)]
    generalize 1 / a = u at *
    generalize 1 / b = v at *
    norm_num at *; linarith

/-- What is needed of the link. -/
structure Plateau (h : ℝ) (L : Link) : Prop where
  range : 10 ≤ h ∧ h ≤ 130
  hg0 : L.hg₀ = 2.56
  hg1 : L.hg₁ = h
  he0 : L.he₀ = 2.56
  he1 : L.he₁ = h
  dl0 : L.dl₀ = 18700
  dl1 : L.dl₁ = 22100
  the0 : L.the₀ = 997.44 / 18700 - 9350 * mesaK
  the1 : L.the₁ = (1000 - h) / 22100 - 11050 * mesaK
  wn : L.wn = 24880 / 477
  dh : 1000 ≤ L.dh
  ens : L.ens = 314
  gme : L.gme = mesaK
  zInv : 4 ≤ L.zInv ∧ L.zInv ≤ 4.02

namespace Plateau
variable {h : ℝ} {L : Link} (M : Plateau h L)
include M

theorem dla : L.dla = 40800 := by unfold Link.dla; rw [M.dl0, M.dl1]; norm_num

omit M in
theorem horizon0 : 6670 ≤ smoothHorizon 2.56 mesaK ∧ smoothHorizon 2.56 mesaK ≤ 6690 := by
  obtain ⟨k1, k2⟩ := mesa_k
  have p := mesa_kpos
  unfold smoothHorizon
  constructor
  · refine Real.le_sqrt_of_sq_le ?_
    rw [le_div_iff₀ p]; norm_num at *; linarith
  · refine Real.sqrt_le_iff.2 ⟨by norm_num, ?_⟩
    rw [div_le_iff₀ p]; norm_num at *; linarith

theorem horizon1 : 13180 ≤ smoothHorizon h mesaK ∧ smoothHorizon h mesaK ≤ 47650 := by
  obtain ⟨h1, h2⟩ := M.range
  obtain ⟨k1, k2⟩ := mesa_k
  have p := mesa_kpos
  unfold smoothHorizon
  constructor
  · refine Real.le_sqrt_of_sq_le ?_
    rw [le_div_iff₀ p]; norm_num at *; linarith
  · refine Real.sqrt_le_iff.2 ⟨by norm_num, ?_⟩
    rw [div_le_iff₀ p]; norm_num at *; linarith

theorem dlsa : 19850 ≤ L.dlsa ∧ L.dlsa ≤ 54340 := by
  obtain ⟨h1, h2⟩ := horizon0
  obtain ⟨h3, h4⟩ := M.horizon1
  unfold Link.dlsa
  rw [M.he0, M.he1, M.gme]
  constructor <;> linarith

/-- The sum of the slopes to the edges of the tableland. -/
theorem slope : 0.0927 ≤ 997.44 / 18700 + (1000 - h) / 22100 ∧ 997.44 / 18700 + (1000 - h) / 22100 ≤ 0.09814 := by
  obtain ⟨h1, h2⟩ := M.range
  constructor <;> (norm_num at *; linarith)

theorem tha : L.tha = 997.44 / 18700 + (1000 - h) / 22100 - 20400 * mesaK := by
  obtain ⟨s1, s2⟩ := M.slope
  have e : L.the₀ + L.the₁ = 997.44 / 18700 + (1000 - h) / 22100 - 20400 * mesaK := by rw [M.the0, M.the1]; ring
  unfold Link.tha
  rw [e, M.dla, M.gme]
  have := mesa_k.1
  have := mesa_k.2
  generalize 997.44 / 18700 + (1000 - h) / 22100 = s at *
  exact max_eq_left (by norm_num at *; linarith)

theorem angle (d : ℝ) : L.tha + d * L.gme = 997.44 / 18700 + (1000 - h) / 22100 + (d - 20400) * mesaK := by rw [M.tha, M.gme]; ring

theorem scatter (d : ℝ) : L.scatterAngle d = 997.44 / 18700 + (1000 - h) / 22100 + (d - 20400) * mesaK := by
  unfold Link.scatterAngle; rw [M.the0, M.the1, M.gme]; ring

theorem angle_bounds {d a b : ℝ} (ha : 0 ≤ a) (h1 : a ≤ d - 20400) (h2 : d - 20400 ≤ b) :
    0.0927 + a * 1.146e-7 ≤ L.tha + d * L.gme ∧ L.tha + d * L.gme ≤ 0.09814 + b * 1.15e-7 := by
  obtain ⟨k1, k2⟩ := mesa_k
  obtain ⟨s1, s2⟩ := M.slope
  rw [M.angle]
  have m1 := mul_le_mul h1 k1 (by norm_num) (by linarith)
  have m2 := mul_le_mul h2 k2 mesa_kpos.le (by linarith)
  constructor <;> linarith

theorem xae : 11310 ≤ L.xae ∧ L.xae ≤ 11350 := by
  obtain ⟨k1, k2⟩ := mesa_k
  have p := mesa_kpos
  have q : 0 < 24880 / 477 * mesaK ^ 2 := by positivity
  have e : L.xae = (24880 / 477 * mesaK ^ 2)⁻¹ ^ (1 / 3 : ℝ) := by
    unfold Link.xae
    rw [M.wn, M.gme, Real.rpow_neg q.le, Real.inv_rpow q.le]
  have s1 := pow_le_pow_left₀ (by norm_num) k1 2
  have s2 := pow_le_pow_left₀ p.le k2 2
  rw [e]
  exact cbrt_bounds (x := (24880 / 477 * mesaK ^ 2)⁻¹) (a := 11310) (b := 11350) (by norm_num) (by norm_num)
    (by rw [inv_eq_one_div, le_div_iff₀ q]; norm_num at *; linarith) (by rw [inv_eq_one_div, div_le_iff₀ q]; norm_num at *; linarith)

theorem d3 : 56390 ≤ L.d3 ∧ L.d3 ≤ 56450 := by
  obtain ⟨x1, x2⟩ := M.xae
  have := M.dlsa.2
  unfold Link.d3
  rw [M.dla, max_eq_right (by norm_num; linarith)]
  constructor <;> (norm_num; linarith)

theorem d4 : 87570 ≤ L.d4 ∧ L.d4 ≤ 87750 ∧ L.d4 - L.d3 = 2.7574 * L.xae := by
  obtain ⟨x1, x2⟩ := M.xae
  obtain ⟨y1, y2⟩ := M.d3
  unfold Link.d4
  refine ⟨?_, ?_, by ring⟩ <;> (norm_num; linarith)

theorem th3 : 0.0968 ≤ L.tha + L.d3 * L.gme ∧ L.tha + L.d3 * L.gme ≤ 0.1023 := by
  obtain ⟨x1, x2⟩ := M.d3
  obtain ⟨a, b⟩ := M.angle_bounds (d := L.d3) (a := 35990) (b := 36050) (by norm_num) (by linarith) (by linarith)
  generalize L.tha + L.d3 * L.gme = t at *
  constructor <;> (norm_num at *; linarith)

theorem th4 : 0.1003 ≤ L.tha + L.d4 * L.gme ∧ L.tha + L.d4 * L.gme ≤ 0.106 := by
  obtain ⟨x1, x2, -⟩ := M.d4
  obtain ⟨a, b⟩ := M.angle_bounds (d := L.d4) (a := 67170) (b := 67350) (by norm_num) (by linarith) (by linarith)
  generalize L.tha + L.d4 * L.gme = t at *
  constructor <;> (norm_num at *; linarith)

/-! ### Diffraction -/

theorem knife3 {a : ℝ} (ha : 18700 ≤ a ∧ a ≤ 22100) : 300 ≤ L.knifeArg a L.d3 ∧ L.knifeArg a L.d3 ≤ 420 := by
  obtain ⟨x1, x2⟩ := M.d3
  obtain ⟨t1, t2⟩ := M.th3
  unfold Link.knifeArg
  rw [M.wn, M.dla]
  generalize L.tha + L.d3 * L.gme = t at *
  have q1 := pow_le_pow_left₀ (by norm_num) t1 2
  have q2 := pow_le_pow_left₀ (le_trans (by norm_num) t1) t2 2
  have p : 0 < L.d3 - 40800 + a := by linarith
  have m1 := mul_le_mul (show 15590 ≤ L.d3 - 40800 by linarith) q1 (by norm_num) (by linarith)
  have m2 := mul_le_mul (show L.d3 - 40800 ≤ 15650 by linarith) q2 (le_trans (by norm_num) q1) (by norm_num)
  have e : 0.0795775 * (24880 / 477) * (L.d3 - 40800) * t ^ 2 * a = 0.0795775 * (24880 / 477) * ((L.d3 - 40800) * t ^ 2 * a) := by ring
  have n1 := mul_le_mul_of_nonneg_right m1 (show 0 ≤ a by linarith)
  have n2 := mul_le_mul_of_nonneg_right m2 (show 0 ≤ a by linarith)
  rw [e, le_div_iff₀ p, div_le_iff₀ p]
  generalize (L.d3 - 40800) * t ^ 2 * a = u at *
  clear q1 q2 m1 m2
  constructor <;> (norm_num at *; linarith)

theorem knife4 {a : ℝ} (ha : 18700 ≤ a ∧ a ≤ 22100) : 500 ≤ L.knifeArg a L.d4 := by
  obtain ⟨x1, x2, -⟩ := M.d4
  obtain ⟨t1, t2⟩ := M.th4
  unfold Link.knifeArg
  rw [M.wn, M.dla]
  generalize L.tha + L.d4 * L.gme = t at *
  have q1 := pow_le_pow_left₀ (by norm_num) t1 2
  have p : 0 < L.d4 - 40800 + a := by linarith
  have m1 := mul_le_mul (show 46770 ≤ L.d4 - 40800 by linarith) q1 (by norm_num) (by linarith)
  have e : 0.0795775 * (24880 / 477) * (L.d4 - 40800) * t ^ 2 * a = 0.0795775 * (24880 / 477) * ((L.d4 - 40800) * t ^ 2 * a) := by ring
  have n1 := mul_le_mul_of_nonneg_right m1 (show 0 ≤ a by linarith)
  rw [e, le_div_iff₀ p]
  generalize (L.d4 - 40800) * t ^ 2 * a = u at *
  clear q1 m1
  norm_num at *; linarith

theorem terminal0 : 101 ≤ terminalArg (24880 / 477) L.zInv 18700 2.56 ∧ terminalArg (24880 / 477) L.zInv 18700 2.56 ≤ 102 ∧
    2.6e-3 ≤ terminalK (24880 / 477) L.zInv 18700 2.56 ∧ terminalK (24880 / 477) L.zInv 18700 2.56 ≤ 2.7e-3 := by
  obtain ⟨z1, z2⟩ := M.zInv
  unfold terminalArg terminalK roundedArg
  have e1 : (18700 : ℝ) / (2 * 2.56 / 18700) * (24880 / 477) = 18700 ^ 2 / (2 * 2.56) * (24880 / 477) := by norm_num
  rw [e1, add_zero]
  obtain ⟨w1, w2⟩ := cbrt_bounds (x := (18700 : ℝ) ^ 2 / (2 * 2.56) * (24880 / 477)) (a := 1527) (b := 1528) (by norm_num) (by norm_num) (by norm_num) (by norm_num)
  generalize ((18700 : ℝ) ^ 2 / (2 * 2.56) * (24880 / 477)) ^ (1 / 3 : ℝ) = w at *
  generalize L.zInv = z at *
  have pw : 0 < w := by linarith
  have k1 : 2.6e-3 ≤ z / w := by rw [le_div_iff₀ pw]; norm_num at *; linarith
  have k2 : z / w ≤ 2.7e-3 := by rw [div_le_iff₀ pw]; norm_num at *; linarith
  generalize z / w = k at *
  have a1 : 1.604 ≤ 1.607 - k := by norm_num at *; linarith
  have a2 : 1.607 - k ≤ 1.607 := by norm_num at *; linarith
  have n1 := mul_le_mul a1 w1 (by norm_num) (le_trans (by norm_num) a1)
  have n2 := mul_le_mul a2 w2 pw.le (by norm_num)
  have e : (1.607 - k) * 151 * w * (2 * 2.56 / 18700) = 151 * (2 * 2.56 / 18700) * ((1.607 - k) * w) := by ring
  rw [e]
  refine ⟨?_, ?_, k1, k2⟩ <;> (norm_num at *; linarith)

theorem terminal1 : 230 ≤ terminalArg (24880 / 477) L.zInv 22100 h ∧ terminalArg (24880 / 477) L.zInv 22100 h ≤ 1330 ∧
    3e-3 ≤ terminalK (24880 / 477) L.zInv 22100 h ∧ terminalK (24880 / 477) L.zInv 22100 h ≤ 9e-3 := by
  obtain ⟨h1, h2⟩ := M.range
  obtain ⟨z1, z2⟩ := M.zInv
  have ph : 0 < h := by linarith
  unfold terminalArg terminalK roundedArg
  have e1 : (22100 : ℝ) / (2 * h / 22100) * (24880 / 477) = 22100 ^ 2 / (2 * h) * (24880 / 477) := by field_simp
  rw [e1, add_zero]
  have s1 := pow_le_pow_left₀ (by norm_num) h1 2
  have s2 := pow_le_pow_left₀ ph.le h2 2
  obtain ⟨w1, w2⟩ := cbrt_bounds (x := (22100 : ℝ) ^ 2 / (2 * h) * (24880 / 477)) (a := 460) (b := 1085) (by norm_num) (by norm_num)
    (by rw [div_mul_eq_mul_div, le_div_iff₀ (by linarith)]; norm_num; linarith) (by rw [div_mul_eq_mul_div, div_le_iff₀ (by linarith)]; norm_num; linarith)
  obtain ⟨v1, v2⟩ := cbrt_bounds (x := (22100 : ℝ) ^ 2 / (2 * h) * (24880 / 477)) (a := 10800 / h) (b := 60000 / h) (by positivity) (by positivity)
    (by rw [div_mul_eq_mul_div, div_pow, div_le_div_iff₀ (by positivity) (by positivity)]
        have := mul_le_mul_of_nonneg_left s1 ph.le
        rw [show (22100 : ℝ) ^ 2 * (24880 / 477) * h ^ 3 = 22100 ^ 2 * (24880 / 477) * (h * h ^ 2) by ring]
        generalize h * h ^ 2 = u at *
        norm_num at *; linarith)
    (by rw [div_mul_eq_mul_div, div_pow, div_le_div_iff₀ (by positivity) (by positivity)]
        have := mul_le_mul_of_nonneg_left s2 ph.le
        rw [show (22100 : ℝ) ^ 2 * (24880 / 477) * h ^ 3 = 22100 ^ 2 * (24880 / 477) * (h * h ^ 2) by ring]
        generalize h * h ^ 2 = u at *
        norm_num at *; linarith)
  generalize ((22100 : ℝ) ^ 2 / (2 * h) * (24880 / 477)) ^ (1 / 3 : ℝ) = w at *
  generalize L.zInv = z at *
  have pw : 0 < w := by linarith
  rw [div_le_iff₀ ph] at v1
  rw [le_div_iff₀ ph] at v2
  have k1 : 3e-3 ≤ z / w := by rw [le_div_iff₀ pw]; norm_num at *; linarith
  have k2 : z / w ≤ 9e-3 := by rw [div_le_iff₀ pw]; norm_num at *; linarith
  generalize z / w = k at *
  have a1 : 1.598 ≤ 1.607 - k := by norm_num at *; linarith
  have a2 : 1.607 - k ≤ 1.607 := by norm_num at *; linarith
  have n1 := mul_le_mul a1 v1 (by norm_num) (le_trans (by norm_num) a1)
  have n2 := mul_le_mul a2 v2 (by positivity) (by norm_num)
  have e : (1.607 - k) * 151 * w * (2 * h / 22100) = 302 / 22100 * ((1.607 - k) * (w * h)) := by ring
  rw [e]
  generalize (1.607 - k) * (w * h) = u at *
  refine ⟨?_, ?_, k1, k2⟩ <;> (norm_num at *; linarith)

omit M in
theorem cube {x k : ℝ} (hx : 100 ≤ x) (k1 : 0 < k) (k2 : k ≤ 9e-3) : 5495 < x * (-Real.log k) ^ 3 := by
  have h' : (4 : ℝ) ≤ -Real.log k := by
    have h1 := Real.log_le_log k1 k2
    have := log_ge_pow2 (y := 1000 / 9) 6 (by norm_num)
    have l := log2_bounds.1
    rw [show (9e-3 : ℝ) = (1000 / 9 : ℝ)⁻¹ by norm_num, Real.log_inv] at h1
    norm_num at *; linarith
  have c := pow_le_pow_left₀ (by norm_num) h' 3
  have := mul_le_mul hx c (by norm_num) (by linarith)
  exact lt_of_lt_of_le (by norm_num) this

theorem gain_clear0 : GainClear (terminalArg (24880 / 477) L.zInv 18700 2.56) (terminalK (24880 / 477) L.zInv 18700 2.56) := by
  obtain ⟨x1, x2, k1, k2⟩ := M.terminal0
  generalize terminalArg (24880 / 477) L.zInv 18700 2.56 = x at *
  generalize terminalK (24880 / 477) L.zInv 18700 2.56 = k at *
  exact ⟨by intro h; norm_num at *; linarith, by intro h; norm_num at *; linarith, by intro h; norm_num at *; linarith,
    by intro h; norm_num at *; linarith, (cube (by linarith) (lt_of_lt_of_le (by norm_num) k1) (k2.trans (by norm_num))).ne'⟩

theorem gain_clear1 : GainClear (terminalArg (24880 / 477) L.zInv 22100 h) (terminalK (24880 / 477) L.zInv 22100 h) := by
  obtain ⟨x1, x2, k1, k2⟩ := M.terminal1
  generalize terminalArg (24880 / 477) L.zInv 22100 h = x at *
  generalize terminalK (24880 / 477) L.zInv 22100 h = k at *
  exact ⟨by intro h; norm_num at *; linarith, by intro h; norm_num at *; linarith, by intro h; norm_num at *; linarith,
    by intro h; norm_num at *; linarith, (cube (by linarith) (lt_of_lt_of_le (by norm_num) k1) k2).ne'⟩

theorem diff : L.DiffClear := by
  have r0 : (18700 : ℝ) ≤ 18700 ∧ (18700 : ℝ) ≤ 22100 := by norm_num
  have r1 : (18700 : ℝ) ≤ 22100 ∧ (22100 : ℝ) ≤ 22100 := by norm_num
  constructor
  · rw [M.wn, M.dl0, M.he0]; exact M.gain_clear0
  · rw [M.wn, M.dl1, M.he1]; exact M.gain_clear1
  · rw [M.dl0]; exact ne_of_gt (lt_of_lt_of_le (by norm_num) (M.knife3 r0).1)
  · rw [M.dl1]; exact ne_of_gt (lt_of_lt_of_le (by norm_num) (M.knife3 r1).1)
  · rw [M.dl0]; exact ne_of_gt (lt_of_lt_of_le (by norm_num) (M.knife4 r0))
  · rw [M.dl1]; exact ne_of_gt (lt_of_lt_of_le (by norm_num) (M.knife4 r1))

theorem xht : 331 ≤ L.xht ∧ L.xht ≤ 1432 := by
  obtain ⟨x1, x2, -, -⟩ := M.terminal0
  obtain ⟨y1, y2, -, -⟩ := M.terminal1
  unfold Link.xht
  rw [M.wn, M.dl0, M.dl1, M.he0, M.he1]
  constructor <;> linarith

/-- The height gains are not above the linear part of the far formula. -/
theorem aht : L.aht ≤ 20 + 0.05751 * L.xht := by
  have g0 : heightGain (terminalArg (24880 / 477) L.zInv 18700 2.56) (terminalK (24880 / 477) L.zInv 18700 2.56) ≤ 0.05751 * terminalArg (24880 / 477) L.zInv 18700 2.56 := by
    obtain ⟨x1, x2, k1, k2⟩ := M.terminal0
    generalize terminalArg (24880 / 477) L.zInv 18700 2.56 = x at *
    generalize terminalK (24880 / 477) L.zInv 18700 2.56 = k at *
    unfold heightGain
    rw [if_neg (by linarith), if_neg (by linarith), if_pos (.inr (cube (by linarith) (lt_of_lt_of_le (by norm_num) k1) (k2.trans (by norm_num)))), if_pos (by linarith)]
    have l1 := log_le_pow2 (y := x) 7 (by linarith)
    have l := log2_bounds.2
    unfold nearGain
    norm_num at *; linarith
  have g1 : heightGain (terminalArg (24880 / 477) L.zInv 22100 h) (terminalK (24880 / 477) L.zInv 22100 h) ≤ 0.05751 * terminalArg (24880 / 477) L.zInv 22100 h := by
    obtain ⟨x1, x2, -, -⟩ := M.terminal1
    generalize terminalArg (24880 / 477) L.zInv 22100 h = x at *
    unfold heightGain
    rw [if_neg (by linarith), if_pos (by linarith)]
    dsimp only
    have l0 := Real.log_nonneg (x := x) (by linarith)
    have l1 := log_le_pow2 (y := x) 10 (by linarith)
    have l := log2_bounds.2
    have n : nearGain x ≤ 0.05751 * x := by unfold nearGain; norm_num at *; linarith
    have f : farGain x ≤ 0.05751 * x := by unfold farGain; norm_num at *; linarith
    obtain ⟨w0, w1⟩ := fht_weight (x := x) (by linarith)
    have w1' := w1.trans (by norm_num : (0.986 : ℝ) ≤ 1)
    generalize 0.0134 * x * Real.exp (-0.005 * x) = w at *
    have a := mul_le_mul_of_nonneg_left n w0
    have b := mul_le_mul_of_nonneg_left f (sub_nonneg.2 w1')
    linarith
  unfold Link.aht Link.xht
  rw [M.wn, M.dl0, M.dl1, M.he0, M.he1]
  linarith

/-- The rounded-earth argument at the two distances of the diffraction line. -/
theorem arg3 : 4600 ≤ roundedArg (24880 / 477) (L.d3 - 40800) (L.tha + L.d3 * L.gme) L.zInv L.xht - L.xht ∧
    roundedArg (24880 / 477) (L.d3 - 40800) (L.tha + L.d3 * L.gme) L.zInv L.xht - L.xht ≤ 5060 := by
  obtain ⟨x1, x2⟩ := M.d3
  obtain ⟨t1, t2⟩ := M.th3
  obtain ⟨z1, z2⟩ := M.zInv
  unfold roundedArg
  rw [add_sub_cancel_right]
  generalize L.tha + L.d3 * L.gme = t at *
  generalize L.zInv = z at *
  have pt : 0 < t := lt_of_lt_of_le (by norm_num) t1
  have r1 : 152300 ≤ (L.d3 - 40800) / t := by rw [le_div_iff₀ pt]; norm_num at *; linarith
  have r2 : (L.d3 - 40800) / t ≤ 161700 := by rw [div_le_iff₀ pt]; norm_num at *; linarith
  generalize (L.d3 - 40800) / t = r at *
  obtain ⟨w1, w2⟩ := cbrt_bounds (x := r * (24880 / 477)) (a := 199) (b := 203.7) (by norm_num) (by norm_num) (by norm_num; linarith) (by norm_num; linarith)
  generalize (r * (24880 / 477)) ^ (1 / 3 : ℝ) = w at *
  have pw : 0 < w := by linarith
  have k1 : 0 ≤ z / w := div_nonneg (le_trans (by norm_num) z1) pw.le
  have k2 : z / w ≤ 0.021 := by rw [div_le_iff₀ pw]; norm_num at *; linarith
  generalize z / w = k at *
  have n1 := mul_le_mul (show 1.586 ≤ 1.607 - k by norm_num at *; linarith) w1 (by norm_num) (by norm_num at *; linarith)
  have n2 := mul_le_mul (show 1.607 - k ≤ 1.607 by norm_num at *; linarith) w2 pw.le (by norm_num)
  have n3 := mul_le_mul n1 t1 (by norm_num) (le_trans (by norm_num) n1)
  have n4 := mul_le_mul n2 t2 pt.le (by norm_num)
  have e : (1.607 - k) * 151 * w * t = 151 * ((1.607 - k) * w * t) := by ring
  rw [e]
  generalize (1.607 - k) * w * t = u at *
  clear n1 n2
  constructor <;> (norm_num at *; linarith)

theorem arg4 : 6830 ≤ roundedArg (24880 / 477) (L.d4 - 40800) (L.tha + L.d4 * L.gme) L.zInv L.xht - L.xht ∧
    roundedArg (24880 / 477) (L.d4 - 40800) (L.tha + L.d4 * L.gme) L.zInv L.xht - L.xht ≤ 7470 := by
  obtain ⟨x1, x2, -⟩ := M.d4
  obtain ⟨t1, t2⟩ := M.th4
  obtain ⟨z1, z2⟩ := M.zInv
  unfold roundedArg
  rw [add_sub_cancel_right]
  generalize L.tha + L.d4 * L.gme = t at *
  generalize L.zInv = z at *
  have pt : 0 < t := lt_of_lt_of_le (by norm_num) t1
  have r1 : 441200 ≤ (L.d4 - 40800) / t := by rw [le_div_iff₀ pt]; norm_num at *; linarith
  have r2 : (L.d4 - 40800) / t ≤ 468200 := by rw [div_le_iff₀ pt]; norm_num at *; linarith
  generalize (L.d4 - 40800) / t = r at *
  obtain ⟨w1, w2⟩ := cbrt_bounds (x := r * (24880 / 477)) (a := 284.4) (b := 290.2) (by norm_num) (by norm_num) (by norm_num; linarith) (by norm_num; linarith)
  generalize (r * (24880 / 477)) ^ (1 / 3 : ℝ) = w at *
  have pw : 0 < w := by norm_num at *; linarith
  have k1 : 0 ≤ z / w := div_nonneg (le_trans (by norm_num) z1) pw.le
  have k2 : z / w ≤ 0.0145 := by rw [div_le_iff₀ pw]; norm_num at *; linarith
  generalize z / w = k at *
  have n1 := mul_le_mul (show 1.592 ≤ 1.607 - k by norm_num at *; linarith) w1 (by norm_num) (by norm_num at *; linarith)
  have n2 := mul_le_mul (show 1.607 - k ≤ 1.607 by norm_num at *; linarith) w2 pw.le (by norm_num)
  have n3 := mul_le_mul n1 t1 (by norm_num) (le_trans (by norm_num) n1)
  have n4 := mul_le_mul n2 t2 pt.le (by norm_num)
  have e : (1.607 - k) * 151 * w * t = 151 * ((1.607 - k) * w * t) := by ring
  rw [e]
  generalize (1.607 - k) * w * t = u at *
  clear n1 n2
  constructor <;> (norm_num at *; linarith)

/-- Rounded-earth attenuations at the two distances. -/
theorem rounded : 150 ≤ roundedEarth L.wn (L.d3 - L.dla) (L.tha + L.d3 * L.gme) L.zInv L.xht L.aht ∧
    90 ≤ roundedEarth L.wn (L.d4 - L.dla) (L.tha + L.d4 * L.gme) L.zInv L.xht L.aht -
      roundedEarth L.wn (L.d3 - L.dla) (L.tha + L.d3 * L.gme) L.zInv L.xht L.aht := by
  obtain ⟨a1, a2⟩ := M.arg3
  obtain ⟨b1, b2⟩ := M.arg4
  obtain ⟨x1, x2⟩ := M.xht
  have h := M.aht
  unfold roundedEarth
  rw [M.wn, M.dla]
  generalize roundedArg (24880 / 477) (L.d3 - 40800) (L.tha + L.d3 * L.gme) L.zInv L.xht = A at *
  generalize roundedArg (24880 / 477) (L.d4 - 40800) (L.tha + L.d4 * L.gme) L.zInv L.xht = B at *
  have pA : 0 < A := by linarith
  have pB : 0 < B := by linarith
  have l := log2_bounds.2
  have lA := log_le_pow2 (y := A) 12 pA
  have lg := Real.log_le_sub_one_of_pos (x := B / A) (by positivity)
  rw [Real.log_div pB.ne' pA.ne'] at lg
  have q : B / A ≤ 1.7 := by rw [div_le_iff₀ pA]; norm_num; linarith
  generalize Real.log A = U at *
  generalize Real.log B = V at *
  generalize B / A = Q at *
  constructor <;> (norm_num at *; linarith)

theorem weight {d : ℝ} (hd : 50000 ≤ d) : diffWeight L.wn L.dh L.wd1 L.xd1 d = 25.1 / (25.1 + √((1 + L.xd1 / d) * 6283.2)) := by
  have w : L.wd1 = 1 := by
    unfold Link.wd1
    rw [M.he0, M.he1, M.hg0, M.hg1, sub_self, zero_div, add_zero, Real.sqrt_one]
  have hE : Real.exp (-d / 50000) ≤ 0.5 := by
    have h1 : Real.exp (-d / 50000) ≤ Real.exp (-1) := Real.exp_le_exp.2 (by rw [div_le_iff₀ (by norm_num)]; linarith)
    have h2 := Real.add_one_le_exp (1 : ℝ)
    refine h1.trans ?_
    rw [Real.exp_neg, inv_eq_one_div, div_le_iff₀ (Real.exp_pos _)]
    norm_num at *; linarith
  have hD := M.dh
  unfold diffWeight irregularity
  rw [w, M.wn, min_eq_right]
  have := mul_le_mul (show 0.6 ≤ 1 - 0.8 * Real.exp (-d / 50000) by norm_num at *; linarith) hD (by norm_num) (by norm_num at *; linarith)
  generalize (1 - 0.8 * Real.exp (-d / 50000)) * L.dh = q at *
  norm_num at *; linarith

theorem xd1 : 0 ≤ L.xd1 ∧ L.xd1 ≤ 900000 := by
  obtain ⟨k1, k2⟩ := mesa_k
  obtain ⟨s1, s2⟩ := M.slope
  have p := mesa_kpos
  unfold Link.xd1
  rw [M.dla, M.tha, M.gme]
  generalize 997.44 / 18700 + (1000 - h) / 22100 = s at *
  have h1 : 0 ≤ (s - 20400 * mesaK) / mesaK := div_nonneg (by norm_num at *; linarith) p.le
  have h2 : (s - 20400 * mesaK) / mesaK ≤ 850000 := by rw [div_le_iff₀ p]; norm_num at *; linarith
  constructor <;> linarith

theorem weights : 0.08 ≤ diffWeight L.wn L.dh L.wd1 L.xd1 L.d4 ∧ diffWeight L.wn L.dh L.wd1 L.xd1 L.d4 ≤ 1 ∧
    diffWeight L.wn L.dh L.wd1 L.xd1 L.d3 ≤ diffWeight L.wn L.dh L.wd1 L.xd1 L.d4 := by
  obtain ⟨y1, y2⟩ := M.d3
  obtain ⟨z1, z2, -⟩ := M.d4
  obtain ⟨u1, u2⟩ := M.xd1
  rw [M.weight (by linarith), M.weight (by linarith)]
  have q1 : L.xd1 / L.d4 ≤ L.xd1 / L.d3 := div_le_div_of_nonneg_left u1 (by linarith) (by linarith)
  have q2 : L.xd1 / L.d4 ≤ 11 := by rw [div_le_iff₀ (by linarith)]; linarith
  have q0 : 0 ≤ L.xd1 / L.d4 := div_nonneg u1 (by linarith)
  generalize L.xd1 / L.d4 = a at *
  generalize L.xd1 / L.d3 = b at *
  have s1 : √((1 + a) * 6283.2) ≤ √((1 + b) * 6283.2) := Real.sqrt_le_sqrt (by norm_num; linarith)
  have s2 : √((1 + a) * 6283.2) ≤ 280 := Real.sqrt_le_iff.2 ⟨by norm_num, by norm_num; linarith⟩
  have s0 := Real.sqrt_nonneg ((1 + a) * 6283.2)
  generalize √((1 + a) * 6283.2) = s at *
  generalize √((1 + b) * 6283.2) = t at *
  refine ⟨?_, ?_, ?_⟩
  · rw [le_div_iff₀ (by norm_num; linarith)]; norm_num; linarith
  · rw [div_le_one (by norm_num; linarith)]; linarith
  · exact div_le_div_of_nonneg_left (by norm_num) (by norm_num; linarith) (by linarith)

theorem md : 2e-4 < L.md := by
  obtain ⟨R3, dR⟩ := M.rounded
  obtain ⟨w1, w2, w3⟩ := M.weights
  have r0 : (18700 : ℝ) ≤ 18700 ∧ (18700 : ℝ) ≤ 22100 := by norm_num
  have r1 : (18700 : ℝ) ≤ 22100 ∧ (22100 : ℝ) ≤ 22100 := by norm_num
  obtain ⟨v1, v2⟩ := M.knife3 r0
  obtain ⟨v3, v4⟩ := M.knife3 r1
  have v5 := M.knife4 r0
  have v6 := M.knife4 r1
  obtain ⟨x1, x2⟩ := M.xae
  have dk : ∀ d, doubleKnife L.wn (d - L.dla) (L.tha + d * L.gme) L.dl₀ L.dl₁ = knifeEdge (clampV2 (L.knifeArg 18700 d)) + knifeEdge (clampV2 (L.knifeArg 22100 d)) := by
    intro d
    unfold doubleKnife Link.knifeArg
    rw [M.dl0, M.dl1]
  have ke : ∀ v : ℝ, 100 ≤ v → knifeEdge (clampV2 v) = 12.953 + 4.343 * Real.log v := by
    intro v hv
    have c : clampV2 v = v := if_neg (by linarith)
    rw [c]; unfold knifeEdge
    rw [if_neg (by norm_num; linarith)]
  have hD : 7 ≤ L.diffraction L.d4 - L.diffraction L.d3 := by
    unfold Link.diffraction
    dsimp only
    rw [dk, dk, ke _ (by linarith), ke _ (by linarith), ke _ (by linarith), ke _ (by linarith)]
    have lm := Real.log_le_log (by linarith) (show L.knifeArg 18700 L.d3 ≤ L.knifeArg 18700 L.d4 by linarith)
    have ln := Real.log_le_log (by linarith) (show L.knifeArg 22100 L.d3 ≤ L.knifeArg 22100 L.d4 by linarith)
    have l3 := log_le_pow2 (y := L.knifeArg 18700 L.d3) 9 (by linarith)
    have l4 := log_le_pow2 (y := L.knifeArg 22100 L.d3) 9 (by linarith)
    have l := log2_bounds.2
    generalize roundedEarth L.wn (L.d4 - L.dla) (L.tha + L.d4 * L.gme) L.zInv L.xht L.aht = A4 at *
    generalize roundedEarth L.wn (L.d3 - L.dla) (L.tha + L.d3 * L.gme) L.zInv L.xht L.aht = A3 at *
    generalize diffWeight L.wn L.dh L.wd1 L.xd1 L.d4 = w at *
    generalize diffWeight L.wn L.dh L.wd1 L.xd1 L.d3 = u at *
    generalize L.knifeArg 18700 L.d3 = V3 at *
    generalize L.knifeArg 22100 L.d3 = V4 at *
    generalize Real.log (L.knifeArg 18700 L.d4) = K4 at *
    generalize Real.log (L.knifeArg 22100 L.d4) = J4 at *
    generalize Real.log V3 = K3 at *
    generalize Real.log V4 = J3 at *
    generalize clutter L.wn L.dh L.hg₀ L.hg₁ L.dlsa = cl
    have up : 12.953 + 4.343 * K3 + (12.953 + 4.343 * J3) ≤ 150 := by norm_num at *; linarith
    have m1 := mul_le_mul w1 dR (by norm_num) (le_trans (by norm_num) w1)
    have m2 : 0 ≤ (1 - w) * (K4 - K3) := mul_nonneg (by linarith) (by linarith)
    have m4 : 0 ≤ (1 - w) * (J4 - J3) := mul_nonneg (by linarith) (by linarith)
    have m3 : 0 ≤ (w - u) * (A3 - (12.953 + 4.343 * K3 + (12.953 + 4.343 * J3))) := mul_nonneg (by linarith) (by linarith)
    clear * - m1 m2 m3 m4
    norm_num at *; linarith
  unfold Link.md
  rw [M.d4.2.2, lt_div_iff₀ (by linarith)]
  generalize L.diffraction L.d4 - L.diffraction L.d3 = D at *
  norm_num at *; linarith

/-! ### Scatter -/

theorem angle_ge {d : ℝ} (hd : 240800 ≤ d) : 0.1175 ≤ L.scatterAngle d := by
  rw [M.scatter]
  have := mul_le_mul (show 220400 ≤ d - 20400 by linarith) mesa_k.1 (by norm_num) (by linarith)
  have s := M.slope.1
  generalize 997.44 / 18700 + (1000 - h) / 22100 = s at *
  norm_num at *; linarith

theorem ad : L.ad = 3400 := by
  unfold Link.ad
  rw [M.dl0, M.dl1, abs_of_neg (by norm_num)]; norm_num

theorem rr : 0 < L.rr := by
  unfold Link.rr
  have := M.range.1
  rw [M.dl0, M.dl1, if_pos (by norm_num), M.he0, M.he1]
  positivity

theorem gain {d : ℝ} (hd : 240800 ≤ d) : 0 ≤ L.scatterGain d ∧ L.scatterGain d ≤ 3 := by
  have hth := M.angle_ge hd
  have eq : (-1 : ℝ) ≤ 0.031 - 0.00232 * (blank 1 (Mesa.inputs L)).ens + 5.67e-6 * (blank 1 (Mesa.inputs L)).ens ^ 2 := by
    show (-1 : ℝ) ≤ 0.031 - 0.00232 * L.ens + 5.67e-6 * L.ens ^ 2
    rw [M.ens]
    norm_num
  have h10 := M.range.1
  have hth' : (0.1175 : ℝ) ≤ (blank 0 (Mesa.inputs L)).the.x0 + (blank 0 (Mesa.inputs L)).the.x1 + d * (blank 0 (Mesa.inputs L)).gme := hth
  obtain ⟨h', hh, h0, hb⟩ := ascatH0_ok (d := d) (p := blank 0 (Mesa.inputs L))
    (s := ⟨L.ad, L.rr, 0.031 - 0.00232 * (blank 1 (Mesa.inputs L)).ens + 5.67e-6 * (blank 1 (Mesa.inputs L)).ens ^ 2, -15⟩)
    (show (0 : ℝ) < L.wn by rw [M.wn]; norm_num)
    (show (0 : ℝ) < L.he₀ by rw [M.he0]; norm_num) (show (0 : ℝ) < L.he₁ by rw [M.he1]; linarith)
    (lt_of_lt_of_le (by norm_num) hth') (by rw [M.ad]; norm_num) (by show L.ad < d; rw [M.ad]; linarith) M.rr eq
  have ev := Props.ascatH0_spec (p := blank 1 (Mesa.inputs L)) (s := ⟨L.ad, L.rr, 0.031 - 0.00232 * (blank 1 (Mesa.inputs L)).ens + 5.67e-6 * (blank 1 (Mesa.inputs L)).ens ^ 2, -15⟩)
    rfl rfl rfl hh
  rw [if_neg (by norm_num), Mesa.inputs_gain] at ev
  rw [← ev]
  refine ⟨h0, hb.trans (max_le (h0Bound_two ?_ ?_) (by norm_num))⟩
  · show (20 : ℝ) ≤ 2.0 * L.wn * _ * L.he₀
    rw [M.wn, M.he0]
    norm_num at *; linarith
  · show (20 : ℝ) ≤ 2.0 * L.wn * _ * L.he₁
    rw [M.wn, M.he1]
    have := mul_le_mul hth' h10 (by norm_num) (le_trans (by norm_num) hth')
    generalize (blank 0 (Mesa.inputs L)).the.x0 + (blank 0 (Mesa.inputs L)).the.x1 + d * (blank 0 (Mesa.inputs L)).gme = t at *
    rw [mul_assoc]
    generalize t * h = u at *
    norm_num at *; linarith

theorem d5 : L.d5 = 240800 := by unfold Link.d5; rw [M.dla]; norm_num
theorem d6 : L.d6 = 440800 := by unfold Link.d6; rw [M.dla]; norm_num

theorem eta {d : ℝ} (hd : 240800 ≤ d) : 1 < L.eta d := by
  have s1 := M.angle_ge hd
  have z : 2700 ≤ L.z0 d := by
    unfold Link.z0
    rw [M.ad, le_div_iff₀ (by linarith)]
    have m := mul_le_mul (show (200000 : ℝ) ≤ d - 3400 by linarith) s1 (by norm_num) (by linarith)
    have m' := mul_le_mul m (show d ≤ d + 3400 by linarith) (by linarith) (by nlinarith)
    have e : (d - 3400) * (d + 3400) * L.scatterAngle d = (d - 3400) * L.scatterAngle d * (d + 3400) := by ring
    rw [e]
    refine le_trans ?_ m'
    norm_num; linarith
  unfold Link.eta
  have hE : Real.exp (-(min 1.7 (L.z0 d / 8000)) ^ 6) ≤ 1 := by
    refine Real.exp_le_one_iff.2 ?_
    rw [neg_nonpos]
    positivity
  rw [M.ens]
  generalize Real.exp (-(min 1.7 (L.z0 d / 8000)) ^ 6) = E at *
  have b : (0.85 : ℝ) ≤ 1 + (0.031 - 0.00232 * 314 + 5.67e-6 * 314 ^ 2) * E := by norm_num; linarith
  have a : (1.5 : ℝ) ≤ L.z0 d / 1755.6 := by rw [le_div_iff₀ (by norm_num)]; norm_num; linarith
  have := mul_le_mul a b (by norm_num) (le_trans (by norm_num) a)
  exact lt_of_lt_of_le (by norm_num) this

theorem usable {d : ℝ} (hd : 240800 ≤ d) : 0.2 < L.scatterR L.he₀ d := by
  unfold Link.scatterR
  rw [M.wn, M.he0]
  have := M.angle_ge hd
  norm_num at *; linarith

theorem th5 : 0.1179 ≤ L.tha + L.d5 * L.gme ∧ L.tha + L.d5 * L.gme ≤ 0.1235 := by
  obtain ⟨a, b⟩ := M.angle_bounds (d := L.d5) (a := 220400) (b := 220400) (by norm_num) (by rw [M.d5]; norm_num) (by rw [M.d5]; norm_num)
  generalize L.tha + L.d5 * L.gme = t at *
  constructor <;> (norm_num at *; linarith)

theorem th6 : 0.1408 ≤ L.tha + L.d6 * L.gme ∧ L.tha + L.d6 * L.gme ≤ 0.1465 := by
  obtain ⟨a, b⟩ := M.angle_bounds (d := L.d6) (a := 420400) (b := 420400) (by norm_num) (by rw [M.d6]; norm_num) (by rw [M.d6]; norm_num)
  generalize L.tha + L.d6 * L.gme = t at *
  constructor <;> (norm_num at *; linarith)

theorem gain5 : L.gain5 = L.scatterGain L.d5 := by
  unfold Link.gain5
  have g5 := (M.gain M.d5.ge).2
  have g6 := (M.gain (d := L.d6) (by rw [M.d6]; norm_num)).2
  rw [if_neg (by rintro (h | h) <;> linarith)]

theorem a5 : 90 ≤ L.a5 ∧ L.a5 ≤ 140 := by
  obtain ⟨g0, g1⟩ := M.gain M.d5.ge
  obtain ⟨t1, t2⟩ := M.th5
  unfold Link.a5
  rw [M.gain5]
  unfold Link.scatterAtt scatterCurve
  dsimp only
  generalize L.scatterGain L.d5 = g at *
  rw [M.ens, M.wn]
  generalize L.tha + L.d5 * L.gme = t at *
  rw [M.d5, if_neg (by norm_num at *; linarith), if_pos (by norm_num at *; linarith)]
  have hE : Real.exp (-t * 240800 / 40000) ≤ 1 := Real.exp_le_one_iff.2 (by norm_num at *; linarith)
  have hE0 := Real.exp_pos (-t * 240800 / 40000)
  have pu : 1 ≤ t * 240800 := by norm_num at *; linarith
  have l1 := Real.log_nonneg pu
  have l2 := log_le_pow2 (y := t * 240800) 15 (by linarith)
  obtain ⟨b1, b2⟩ := log2_bounds
  have q1 := pow_le_pow_left₀ (by norm_num) t1 4
  have q2 := pow_le_pow_left₀ (le_trans (by norm_num) t1) t2 4
  have n1 : 0.48 ≤ 47.7 * (24880 / 477) * t ^ 4 := by norm_num at *; linarith
  have m2 := Real.log_nonpos (x := 47.7 * (24880 / 477) * t ^ 4) (le_trans (by norm_num) n1) (by norm_num at *; linarith)
  have m1 : -1.1 ≤ Real.log (47.7 * (24880 / 477) * t ^ 4) := by
    have h := Real.log_le_log (x := 0.48) (by norm_num) n1
    have := Real.one_sub_inv_le_log_of_pos (x := 0.48) (by norm_num)
    norm_num at *; linarith
  generalize Real.log (47.7 * (24880 / 477) * t ^ 4) = B at *
  generalize Real.exp (-t * 240800 / 40000) = E at *
  generalize Real.log (t * 240800) = A at *
  generalize Real.log 2 = T at *
  clear q1 q2 n1
  constructor <;> (norm_num at *; linarith)

theorem a6 : L.a6 ≤ 114 := by
  obtain ⟨g0, g1⟩ := M.gain (d := L.d6) (by rw [M.d6]; norm_num)
  obtain ⟨t1, t2⟩ := M.th6
  unfold Link.a6 Link.scatterAtt scatterCurve
  dsimp only
  generalize L.scatterGain L.d6 = g at *
  rw [M.ens, M.wn]
  generalize L.tha + L.d6 * L.gme = t at *
  rw [M.d6, if_neg (by norm_num at *; linarith), if_pos (by norm_num at *; linarith)]
  have hE0 := Real.exp_pos (-t * 440800 / 40000)
  have pu : (62000 : ℝ) ≤ t * 440800 := by norm_num at *; linarith
  have l1 : 10 ≤ Real.log (t * 440800) := by
    have h := Real.log_le_log (by norm_num) pu
    have := log_ge_pow2 (y := 62000) 15 (by norm_num)
    have b1 := log2_bounds.1
    norm_num at *; linarith
  have q1 := pow_le_pow_left₀ (by norm_num) t1 4
  have q2 := pow_le_pow_left₀ (le_trans (by norm_num) t1) t2 4
  have n1 : 0 < 47.7 * (24880 / 477) * t ^ 4 := by norm_num at *; linarith
  have m2 := Real.log_le_sub_one_of_pos n1
  have m3 : 47.7 * (24880 / 477) * t ^ 4 ≤ 1.2 := by norm_num at *; linarith
  generalize 47.7 * (24880 / 477) * t ^ 4 = Y at *
  generalize Real.log Y = B at *
  generalize Real.exp (-t * 440800 / 40000) = E at *
  generalize Real.log (t * 440800) = A at *
  clear q1 q2
  norm_num at *; linarith

theorem notParallel : ¬ L.Parallel := by
  have s : L.ms < L.md := by
    refine lt_of_le_of_lt ?_ M.md
    unfold Link.ms
    rw [M.d5, M.d6, div_le_iff₀ (by norm_num)]
    have := M.a5.1
    have := M.a6
    norm_num at *; linarith
  rintro ⟨-, h⟩
  have e := (Link.gain5'_eq (L := L) (.inl (M.usable (d := L.d6) (by rw [M.d6]; norm_num)).le)).2
  rw [e] at h
  exact s.ne' h

/-- Beyond its horizon the link is in general position. -/
theorem clear {d : ℝ} (hd : 54400 ≤ d) : L.Clear d := by
  have hs : L.dlsa < d := by linarith [M.dlsa.2]
  have l5 : 240800 ≤ L.d5 := M.d5.ge
  have l6 : 240800 ≤ L.d6 := by rw [M.d6]; norm_num
  obtain ⟨u1, u2⟩ := M.th5
  obtain ⟨v1, v2⟩ := M.th6
  refine ⟨M.diff, hs.ne', fun h => absurd h (not_lt.2 hs.le), fun _ => ⟨?_, ?_, .inl (by rw [M.dl0, M.dl1]; norm_num), ?_, ?_⟩⟩
  · refine ⟨.inl (M.usable l5), (M.eta l5).ne', ne_of_lt (by linarith [(M.gain l5).2]), ?_, ?_⟩
    · generalize L.tha + L.d5 * L.gme = t at *
      rw [M.d5]; intro h; norm_num at *; linarith
    · generalize L.tha + L.d5 * L.gme = t at *
      rw [M.d5]; intro h; norm_num at *; linarith
  · refine ⟨.inl (M.usable l6), (M.eta l6).ne', ne_of_lt (by linarith [(M.gain l6).2]), ?_, ?_⟩
    · generalize L.tha + L.d6 * L.gme = t at *
      rw [M.d6]; intro h; norm_num at *; linarith
    · generalize L.tha + L.d6 * L.gme = t at *
      rw [M.d6]; intro h; norm_num at *; linarith
  · intro h
    have := (M.gain l5).2
    linarith
  · exact ne_of_lt (by linarith [M.a5.2])

theorem link_usable : L.Usable := by
  obtain ⟨h1, h2⟩ := horizon0
  obtain ⟨h3, h4⟩ := M.horizon1
  obtain ⟨k1, k2⟩ := mesa_k
  obtain ⟨r1, r2⟩ := M.range
  refine ⟨⟨?_, ?_, ?_, ?_⟩, ⟨?_, ?_, ?_, ?_⟩, ?_, ?_⟩
  · rw [M.hg0]; norm_num
  · rw [M.the0, abs_le]; constructor <;> (norm_num at *; linarith)
  · rw [M.he0, M.gme, M.dl0]; norm_num at *; linarith
  · rw [M.he0, M.gme, M.dl0]; norm_num at *; linarith
  · rw [M.hg1]; constructor <;> (norm_num; linarith)
  · rw [M.the1, abs_le]; constructor <;> (norm_num at *; linarith)
  · rw [M.he1, M.gme, M.dl1]; norm_num; linarith
  · rw [M.he1, M.gme, M.dl1]; linarith
  · rw [M.he0]; norm_num
  · rw [M.he1]; linarith

end Plateau

end Itm
