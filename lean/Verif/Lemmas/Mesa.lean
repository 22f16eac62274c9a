import Verif.Lemmas.Beam
import Verif.Props.C73

/-! A concrete point-to-point link in the microwave range: 19.08 GHz (wave number 400) over 66 km, both antennas 30 m above a plain, a
tableland of 250 m between them. It is in general position. -/

namespace Itm
open Itm.Spec

noncomputable def mesaK : ℝ := curvature 314

theorem mesa_k : 1.146e-7 ≤ mesaK ∧ mesaK ≤ 1.15e-7 := by
  have h1 : Real.exp (314 / 179.3) ≤ 5.765 := by
    have := Real.exp_bound' (x := 0.8757) (by norm_num) (by norm_num) (n := 6) (by norm_num)
    have h3 : Real.exp 0.8757 ≤ 2.401 := by
      refine this.trans ?_
      simp [Finset.sum_range_succ, Nat.factorial]
      norm_num
    have h2 : Real.exp (314 / 179.3) ≤ Real.exp (0.8757 + 0.8757) := Real.exp_le_exp.2 (by norm_num)
    rw [Real.exp_add] at h2
    have := mul_le_mul h3 h3 (Real.exp_pos _).le (by norm_num)
    norm_num at *; linarith
  have h2 : 5.74 ≤ Real.exp (314 / 179.3) := by
    have := Real.sum_le_exp_of_nonneg (x := 0.8755) (by norm_num) 6
    have h3 : 2.398 ≤ Real.exp 0.8755 := by
      refine le_trans ?_ this
      simp [Finset.sum_range_succ, Nat.factorial]
      norm_num
    have h2 : Real.exp (0.8755 + 0.8755) ≤ Real.exp (314 / 179.3) := Real.exp_le_exp.2 (by norm_num)
    rw [Real.exp_add] at h2
    have := mul_le_mul h3 h3 (by norm_num) (Real.exp_pos _).le
    norm_num at *; linarith
  unfold mesaK curvature
  generalize Real.exp (314 / 179.3) = e at *
  constructor <;> (norm_num at *; linarith)

theorem mesa_kpos : 0 < mesaK := lt_of_lt_of_le (by norm_num) mesa_k.1

/-- What is needed of the link. -/
structure Mesa (L : Link) : Prop where
  hg0 : L.hg₀ = 30
  hg1 : L.hg₁ = 30
  he0 : L.he₀ = 30
  he1 : L.he₁ = 30
  dl0 : L.dl₀ = 22000
  dl1 : L.dl₁ = 22000
  the0 : L.the₀ = 0.01 - 11000 * mesaK
  the1 : L.the₁ = 0.01 - 11000 * mesaK
  wn : L.wn = 400
  dh : 250 ≤ L.dh
  ens : L.ens = 314
  gme : L.gme = mesaK
  zInv : 0.26 ≤ L.zInv ∧ L.zInv ≤ 0.27

namespace Mesa
variable {L : Link} (M : Mesa L)
include M

theorem dla : L.dla = 44000 := by unfold Link.dla; rw [M.dl0, M.dl1]; norm_num

theorem horizon : 22800 ≤ smoothHorizon 30 mesaK ∧ smoothHorizon 30 mesaK ≤ 22900 := by
  obtain ⟨k1, k2⟩ := mesa_k
  have p := mesa_kpos
  unfold smoothHorizon
  constructor
  · refine Real.le_sqrt_of_sq_le ?_
    rw [le_div_iff₀ p]; norm_num at *; linarith
  · refine Real.sqrt_le_iff.2 ⟨by norm_num, ?_⟩
    rw [div_le_iff₀ p]; norm_num at *; linarith

theorem dlsa : 45600 ≤ L.dlsa ∧ L.dlsa ≤ 45800 := by
  obtain ⟨h1, h2⟩ := M.horizon
  unfold Link.dlsa
  rw [M.he0, M.he1, M.gme]
  constructor <;> linarith

theorem tha : L.tha = 0.02 - 22000 * mesaK := by
  unfold Link.tha
  rw [M.the0, M.the1, M.dla, M.gme]
  have := mesa_k.1
  have := mesa_k.2
  rw [max_eq_left (by norm_num at *; linarith)]
  norm_num; ring

theorem angle (d : ℝ) : L.tha + d * L.gme = 0.02 + (d - 22000) * mesaK := by rw [M.tha, M.gme]; ring

theorem scatter (d : ℝ) : L.scatterAngle d = 0.02 + (d - 22000) * mesaK := by
  unfold Link.scatterAngle; rw [M.the0, M.the1, M.gme]; norm_num; ring

theorem xae : 5730 ≤ L.xae ∧ L.xae ≤ 5760 := by
  obtain ⟨k1, k2⟩ := mesa_k
  have p := mesa_kpos
  have q : 0 < 400 * mesaK ^ 2 := by positivity
  have e : L.xae = (400 * mesaK ^ 2)⁻¹ ^ (1 / 3 : ℝ) := by
    unfold Link.xae
    rw [M.wn, M.gme, Real.rpow_neg q.le, Real.inv_rpow q.le]
  have s1 := pow_le_pow_left₀ (by norm_num) k1 2
  have s2 := pow_le_pow_left₀ p.le k2 2
  rw [e]
  exact cbrt_bounds (x := (400 * mesaK ^ 2)⁻¹) (a := 5730) (b := 5760) (by norm_num) (by norm_num)
    (by rw [inv_eq_one_div, le_div_iff₀ q]; norm_num at *; linarith) (by rw [inv_eq_one_div, div_le_iff₀ q]; norm_num at *; linarith)

theorem d3 : 51890 ≤ L.d3 ∧ L.d3 ≤ 51950 := by
  obtain ⟨x1, x2⟩ := M.xae
  have := M.dlsa.2
  unfold Link.d3
  rw [M.dla, max_eq_right (by norm_num; linarith)]
  constructor <;> (norm_num; linarith)

theorem d4 : 67680 ≤ L.d4 ∧ L.d4 ≤ 67840 ∧ L.d4 - L.d3 = 2.7574 * L.xae := by
  obtain ⟨x1, x2⟩ := M.xae
  obtain ⟨y1, y2⟩ := M.d3
  unfold Link.d4
  refine ⟨?_, ?_, by ring⟩ <;> (norm_num; linarith)

theorem th3 : 0.02342 ≤ L.tha + L.d3 * L.gme ∧ L.tha + L.d3 * L.gme ≤ 0.02345 := by
  obtain ⟨x1, x2⟩ := M.d3
  obtain ⟨k1, k2⟩ := mesa_k
  rw [M.angle]
  have m1 := mul_le_mul (show 29890 ≤ L.d3 - 22000 by linarith) k1 (by norm_num) (by linarith)
  have m2 := mul_le_mul (show L.d3 - 22000 ≤ 29950 by linarith) k2 mesa_kpos.le (by norm_num)
  constructor <;> (norm_num at *; linarith)

theorem th4 : 0.02523 ≤ L.tha + L.d4 * L.gme ∧ L.tha + L.d4 * L.gme ≤ 0.02528 := by
  obtain ⟨x1, x2, -⟩ := M.d4
  obtain ⟨k1, k2⟩ := mesa_k
  rw [M.angle]
  have m1 := mul_le_mul (show 45680 ≤ L.d4 - 22000 by linarith) k1 (by norm_num) (by linarith)
  have m2 := mul_le_mul (show L.d4 - 22000 ≤ 45840 by linarith) k2 mesa_kpos.le (by norm_num)
  constructor <;> (norm_num at *; linarith)

/-! ### Diffraction -/

theorem knife3 : 100 ≤ L.knifeArg 22000 L.d3 ∧ L.knifeArg 22000 L.d3 ≤ 104 := by
  obtain ⟨x1, x2⟩ := M.d3
  obtain ⟨t1, t2⟩ := M.th3
  unfold Link.knifeArg
  rw [M.wn, M.dla]
  generalize L.tha + L.d3 * L.gme = t at *
  have q1 := pow_le_pow_left₀ (by norm_num) t1 2
  have q2 := pow_le_pow_left₀ (le_trans (by norm_num) t1) t2 2
  have p : 0 < L.d3 - 44000 + 22000 := by linarith
  have m1 := mul_le_mul (show 7890 ≤ L.d3 - 44000 by linarith) q1 (by norm_num) (by linarith)
  have m2 := mul_le_mul (show L.d3 - 44000 ≤ 7950 by linarith) q2 (le_trans (by norm_num) q1) (by norm_num)
  have e : 0.0795775 * 400 * (L.d3 - 44000) * t ^ 2 * 22000 = 0.0795775 * 400 * 22000 * ((L.d3 - 44000) * t ^ 2) := by ring
  rw [e, le_div_iff₀ p, div_le_iff₀ p]
  generalize (L.d3 - 44000) * t ^ 2 = u at *
  clear q1 q2
  constructor <;> (norm_num at *; linarith)

theorem knife4 : 220 ≤ L.knifeArg 22000 L.d4 := by
  obtain ⟨x1, x2, -⟩ := M.d4
  obtain ⟨t1, t2⟩ := M.th4
  unfold Link.knifeArg
  rw [M.wn, M.dla]
  generalize L.tha + L.d4 * L.gme = t at *
  have q1 := pow_le_pow_left₀ (by norm_num) t1 2
  have p : 0 < L.d4 - 44000 + 22000 := by linarith
  have m1 := mul_le_mul (show 23680 ≤ L.d4 - 44000 by linarith) q1 (by norm_num) (by linarith)
  have e : 0.0795775 * 400 * (L.d4 - 44000) * t ^ 2 * 22000 = 0.0795775 * 400 * 22000 * ((L.d4 - 44000) * t ^ 2) := by ring
  rw [e, le_div_iff₀ p]
  generalize (L.d4 - 44000) * t ^ 2 = u at *
  clear q1
  norm_num at *; linarith

theorem terminal : 970 ≤ terminalArg 400 L.zInv 22000 30 ∧ terminalArg 400 L.zInv 22000 30 ≤ 985 ∧
    1e-4 ≤ terminalK 400 L.zInv 22000 30 ∧ terminalK 400 L.zInv 22000 30 ≤ 2e-4 := by
  obtain ⟨z1, z2⟩ := M.zInv
  unfold terminalArg terminalK roundedArg
  have e1 : (22000 : ℝ) / (2 * 30 / 22000) * 400 = 22000 ^ 2 / (2 * 30) * 400 := by norm_num
  rw [e1, add_zero]
  obtain ⟨w1, w2⟩ := cbrt_bounds (x := (22000 : ℝ) ^ 2 / (2 * 30) * 400) (a := 1477) (b := 1478) (by norm_num) (by norm_num) (by norm_num) (by norm_num)
  generalize ((22000 : ℝ) ^ 2 / (2 * 30) * 400) ^ (1 / 3 : ℝ) = w at *
  generalize L.zInv = z at *
  have pw : 0 < w := by linarith
  have k1 : 1e-4 ≤ z / w := by rw [le_div_iff₀ pw]; norm_num at *; linarith
  have k2 : z / w ≤ 2e-4 := by rw [div_le_iff₀ pw]; norm_num at *; linarith
  generalize z / w = k at *
  have a1 : 1.6068 ≤ 1.607 - k := by norm_num at *; linarith
  have a2 : 1.607 - k ≤ 1.607 := by norm_num at *; linarith
  have n1 := mul_le_mul a1 w1 (by norm_num) (le_trans (by norm_num) a1)
  have n2 := mul_le_mul a2 w2 pw.le (by norm_num)
  have e : (1.607 - k) * 151 * w * (2 * 30 / 22000) = 151 * (2 * 30 / 22000) * ((1.607 - k) * w) := by ring
  rw [e]
  refine ⟨?_, ?_, k1, k2⟩ <;> (norm_num at *; linarith)

theorem gain_clear : GainClear (terminalArg 400 L.zInv 22000 30) (terminalK 400 L.zInv 22000 30) := by
  obtain ⟨x1, x2, k1, k2⟩ := M.terminal
  generalize terminalArg 400 L.zInv 22000 30 = x at *
  generalize terminalK 400 L.zInv 22000 30 = k at *
  refine ⟨by intro h; norm_num at *; linarith, by intro h; norm_num at *; linarith, by intro h; norm_num at *; linarith,
    by intro h; norm_num at *; linarith, ?_⟩
  have h : Real.log k ≤ -6 := by
    have pk : 0 < k := lt_of_lt_of_le (by norm_num) k1
    have h1 := Real.log_le_log pk k2
    have := log_ge_pow2 (y := 5000) 11 (by norm_num)
    have l := log2_bounds.1
    rw [show (2e-4 : ℝ) = (5000 : ℝ)⁻¹ by norm_num, Real.log_inv] at h1
    norm_num at *; linarith
  have h' : (6 : ℝ) ≤ -Real.log k := by linarith
  have c := pow_le_pow_left₀ (by norm_num) h' 3
  have := mul_le_mul x1 c (by norm_num) (by linarith)
  refine ne_of_gt (lt_of_lt_of_le (by norm_num) this)

theorem diff : L.DiffClear := by
  have v3 := M.knife3.1
  have v4 := M.knife4
  constructor
  · rw [M.wn, M.dl0, M.he0]; exact M.gain_clear
  · rw [M.wn, M.dl1, M.he1]; exact M.gain_clear
  · rw [M.dl0]; exact ne_of_gt (lt_of_lt_of_le (by norm_num) v3)
  · rw [M.dl1]; exact ne_of_gt (lt_of_lt_of_le (by norm_num) v3)
  · rw [M.dl0]; exact ne_of_gt (lt_of_lt_of_le (by norm_num) v4)
  · rw [M.dl1]; exact ne_of_gt (lt_of_lt_of_le (by norm_num) v4)

theorem xht : 1940 ≤ L.xht ∧ L.xht ≤ 1970 := by
  obtain ⟨x1, x2, -, -⟩ := M.terminal
  unfold Link.xht
  rw [M.wn, M.dl0, M.dl1, M.he0, M.he1]
  constructor <;> linarith

/-- The height gains are not above the linear part of the far formula. -/
theorem aht : L.aht ≤ 20 + 0.05751 * L.xht := by
  have g : heightGain (terminalArg 400 L.zInv 22000 30) (terminalK 400 L.zInv 22000 30) ≤ 0.05751 * terminalArg 400 L.zInv 22000 30 := by
    obtain ⟨x1, x2, -, -⟩ := M.terminal
    generalize terminalArg 400 L.zInv 22000 30 = x at *
    unfold heightGain
    rw [if_neg (by linarith), if_pos (by linarith)]
    dsimp only
    have l0 := Real.log_nonneg (x := x) (by linarith)
    have l1 := log_le_pow2 (y := x) 10 (by linarith)
    have l := log2_bounds.2
    have n : nearGain x ≤ 0.05751 * x := by unfold nearGain; norm_num at *; linarith
    have f : farGain x ≤ 0.05751 * x := by unfold farGain; norm_num at *; linarith
    have w0 : 0 ≤ 0.0134 * x * Real.exp (-0.005 * x) := by
      have := Real.exp_pos (-0.005 * x)
      have : 0 ≤ x := by linarith
      positivity
    have w1 : 0.0134 * x * Real.exp (-0.005 * x) ≤ 1 := by
      have e1 : Real.exp (-0.005 * x) ≤ Real.exp (-4.85) := Real.exp_le_exp.2 (by norm_num; linarith)
      have e2 : Real.exp (-4.85) ≤ 0.06 := by
        have h := Real.sum_le_exp_of_nonneg (x := 4.85) (by norm_num) 4
        simp [Finset.sum_range_succ, Nat.factorial] at h
        rw [Real.exp_neg, inv_eq_one_div, div_le_iff₀ (Real.exp_pos _)]
        norm_num at *; linarith
      have := mul_le_mul (show 0.0134 * x ≤ 13.3 by norm_num; linarith) (e1.trans e2) (Real.exp_pos _).le (by norm_num)
      refine this.trans (by norm_num)
    generalize 0.0134 * x * Real.exp (-0.005 * x) = w at *
    have a := mul_le_mul_of_nonneg_left n w0
    have b := mul_le_mul_of_nonneg_left f (sub_nonneg.2 w1)
    linarith
  unfold Link.aht Link.xht
  rw [M.wn, M.dl0, M.dl1, M.he0, M.he1]
  linarith

/-- The rounded-earth argument at the two distances of the diffraction line. -/
theorem arg3 : 2890 ≤ roundedArg 400 (L.d3 - 44000) (L.tha + L.d3 * L.gme) L.zInv L.xht - L.xht ∧
    roundedArg 400 (L.d3 - 44000) (L.tha + L.d3 * L.gme) L.zInv L.xht - L.xht ≤ 2950 := by
  obtain ⟨x1, x2⟩ := M.d3
  obtain ⟨t1, t2⟩ := M.th3
  obtain ⟨z1, z2⟩ := M.zInv
  unfold roundedArg
  rw [add_sub_cancel_right]
  generalize L.tha + L.d3 * L.gme = t at *
  generalize L.zInv = z at *
  have pt : 0 < t := lt_of_lt_of_le (by norm_num) t1
  have r1 : 336400 ≤ (L.d3 - 44000) / t := by rw [le_div_iff₀ pt]; norm_num at *; linarith
  have r2 : (L.d3 - 44000) / t ≤ 339500 := by rw [div_le_iff₀ pt]; norm_num at *; linarith
  generalize (L.d3 - 44000) / t = r at *
  obtain ⟨w1, w2⟩ := cbrt_bounds (x := r * 400) (a := 512) (b := 515) (by norm_num) (by norm_num) (by norm_num; linarith) (by norm_num; linarith)
  generalize (r * 400) ^ (1 / 3 : ℝ) = w at *
  have pw : 0 < w := by linarith
  have k1 : 0 ≤ z / w := div_nonneg (le_trans (by norm_num) z1) pw.le
  have k2 : z / w ≤ 1e-3 := by rw [div_le_iff₀ pw]; norm_num at *; linarith
  generalize z / w = k at *
  have n1 := mul_le_mul (show 1.606 ≤ 1.607 - k by norm_num at *; linarith) w1 (by norm_num) (by norm_num at *; linarith)
  have n2 := mul_le_mul (show 1.607 - k ≤ 1.607 by norm_num at *; linarith) w2 pw.le (by norm_num)
  have n3 := mul_le_mul n1 t1 (by norm_num) (le_trans (by norm_num) n1)
  have n4 := mul_le_mul n2 t2 pt.le (by norm_num)
  have e : (1.607 - k) * 151 * w * t = 151 * ((1.607 - k) * w * t) := by ring
  rw [e]
  generalize (1.607 - k) * w * t = u at *
  clear n1 n2
  constructor <;> (norm_num at *; linarith)

theorem arg4 : 4380 ≤ roundedArg 400 (L.d4 - 44000) (L.tha + L.d4 * L.gme) L.zInv L.xht - L.xht ∧
    roundedArg 400 (L.d4 - 44000) (L.tha + L.d4 * L.gme) L.zInv L.xht - L.xht ≤ 4500 := by
  obtain ⟨x1, x2, -⟩ := M.d4
  obtain ⟨t1, t2⟩ := M.th4
  obtain ⟨z1, z2⟩ := M.zInv
  unfold roundedArg
  rw [add_sub_cancel_right]
  generalize L.tha + L.d4 * L.gme = t at *
  generalize L.zInv = z at *
  have pt : 0 < t := lt_of_lt_of_le (by norm_num) t1
  have r1 : 936000 ≤ (L.d4 - 44000) / t := by rw [le_div_iff₀ pt]; norm_num at *; linarith
  have r2 : (L.d4 - 44000) / t ≤ 945000 := by rw [div_le_iff₀ pt]; norm_num at *; linarith
  generalize (L.d4 - 44000) / t = r at *
  obtain ⟨w1, w2⟩ := cbrt_bounds (x := r * 400) (a := 720) (b := 724) (by norm_num) (by norm_num) (by norm_num; linarith) (by norm_num; linarith)
  generalize (r * 400) ^ (1 / 3 : ℝ) = w at *
  have pw : 0 < w := by linarith
  have k1 : 0 ≤ z / w := div_nonneg (le_trans (by norm_num) z1) pw.le
  have k2 : z / w ≤ 1e-3 := by rw [div_le_iff₀ pw]; norm_num at *; linarith
  generalize z / w = k at *
  have n1 := mul_le_mul (show 1.606 ≤ 1.607 - k by norm_num at *; linarith) w1 (by norm_num) (by norm_num at *; linarith)
  have n2 := mul_le_mul (show 1.607 - k ≤ 1.607 by norm_num at *; linarith) w2 pw.le (by norm_num)
  have n3 := mul_le_mul n1 t1 (by norm_num) (le_trans (by norm_num) n1)
  have n4 := mul_le_mul n2 t2 pt.le (by norm_num)
  have e : (1.607 - k) * 151 * w * t = 151 * ((1.607 - k) * w * t) := by ring
  rw [e]
  generalize (1.607 - k) * w * t = u at *
  clear n1 n2
  constructor <;> (norm_num at *; linarith)

/-- Rounded-earth attenuations at the two distances. -/
theorem rounded : 85 ≤ roundedEarth L.wn (L.d3 - L.dla) (L.tha + L.d3 * L.gme) L.zInv L.xht L.aht ∧
    60 ≤ roundedEarth L.wn (L.d4 - L.dla) (L.tha + L.d4 * L.gme) L.zInv L.xht L.aht -
      roundedEarth L.wn (L.d3 - L.dla) (L.tha + L.d3 * L.gme) L.zInv L.xht L.aht := by
  obtain ⟨a1, a2⟩ := M.arg3
  obtain ⟨b1, b2⟩ := M.arg4
  obtain ⟨x1, x2⟩ := M.xht
  have h := M.aht
  unfold roundedEarth
  rw [M.wn, M.dla]
  generalize roundedArg 400 (L.d3 - 44000) (L.tha + L.d3 * L.gme) L.zInv L.xht = A at *
  generalize roundedArg 400 (L.d4 - 44000) (L.tha + L.d4 * L.gme) L.zInv L.xht = B at *
  have pA : 0 < A := by linarith
  have pB : 0 < B := by linarith
  have l := log2_bounds.2
  have lA := log_le_pow2 (y := A) 12 pA
  have lg := Real.log_le_sub_one_of_pos (x := B / A) (by positivity)
  rw [Real.log_div pB.ne' pA.ne'] at lg
  have q : B / A ≤ 1.4 := by rw [div_le_iff₀ pA]; norm_num; linarith
  generalize Real.log A = U at *
  generalize Real.log B = V at *
  generalize B / A = Q at *
  constructor <;> (norm_num at *; linarith)

theorem weight {d : ℝ} (hd : 50000 ≤ d) : diffWeight L.wn L.dh L.wd1 L.xd1 d = 25.1 / (25.1 + √((1 + L.xd1 / d) * 6283.2)) := by
  have w : L.wd1 = 1 := by
    unfold Link.wd1
    rw [M.he0, M.he1, M.hg0, M.hg1, sub_self, zero_div, add_zero, Real.sqrt_one]
  have hE : Real.exp (-d / 50000) ≤ 0.5 := by
    have h1 : Real.exp (-d / 50000) ≤ Real.exp (-1) := Real.exp_le_exp.2 (by rw [div_le_iff₀ (by norm_num)]; linarith)
    have h2 := Real.add_one_le_exp (1 : ℝ)
    refine h1.trans ?_
    rw [Real.exp_neg, inv_eq_one_div, div_le_iff₀ (Real.exp_pos _)]
    norm_num at *; linarith
  have hD := M.dh
  unfold diffWeight irregularity
  rw [w, M.wn, min_eq_right]
  have := mul_le_mul (show 0.6 ≤ 1 - 0.8 * Real.exp (-d / 50000) by norm_num at *; linarith) hD (by norm_num) (by norm_num at *; linarith)
  generalize (1 - 0.8 * Real.exp (-d / 50000)) * L.dh = q at *
  norm_num at *; linarith

theorem xd1 : 0 ≤ L.xd1 ∧ L.xd1 ≤ 197000 := by
  obtain ⟨k1, k2⟩ := mesa_k
  have p := mesa_kpos
  unfold Link.xd1
  rw [M.dla, M.tha, M.gme]
  have h1 : 0 ≤ (0.02 - 22000 * mesaK) / mesaK := div_nonneg (by norm_num at *; linarith) p.le
  have h2 : (0.02 - 22000 * mesaK) / mesaK ≤ 153000 := by rw [div_le_iff₀ p]; norm_num at *; linarith
  constructor <;> linarith

theorem weights : 0.1 ≤ diffWeight L.wn L.dh L.wd1 L.xd1 L.d4 ∧ diffWeight L.wn L.dh L.wd1 L.xd1 L.d4 ≤ 1 ∧
    diffWeight L.wn L.dh L.wd1 L.xd1 L.d3 ≤ diffWeight L.wn L.dh L.wd1 L.xd1 L.d4 := by
  obtain ⟨y1, y2⟩ := M.d3
  obtain ⟨z1, z2, -⟩ := M.d4
  obtain ⟨u1, u2⟩ := M.xd1
  rw [M.weight (by linarith), M.weight (by linarith)]
  have q1 : L.xd1 / L.d4 ≤ L.xd1 / L.d3 := div_le_div_of_nonneg_left u1 (by linarith) (by linarith)
  have q2 : L.xd1 / L.d4 ≤ 3 := by rw [div_le_iff₀ (by linarith)]; linarith
  have q0 : 0 ≤ L.xd1 / L.d4 := div_nonneg u1 (by linarith)
  generalize L.xd1 / L.d4 = a at *
  generalize L.xd1 / L.d3 = b at *
  have s1 : √((1 + a) * 6283.2) ≤ √((1 + b) * 6283.2) := Real.sqrt_le_sqrt (by norm_num; linarith)
  have s2 : √((1 + a) * 6283.2) ≤ 160 := Real.sqrt_le_iff.2 ⟨by norm_num, by norm_num; linarith⟩
  have s0 := Real.sqrt_nonneg ((1 + a) * 6283.2)
  generalize √((1 + a) * 6283.2) = s at *
  generalize √((1 + b) * 6283.2) = t at *
  refine ⟨?_, ?_, ?_⟩
  · rw [le_div_iff₀ (by norm_num; linarith)]; norm_num; linarith
  · rw [div_le_one (by norm_num; linarith)]; linarith
  · exact div_le_div_of_nonneg_left (by norm_num) (by norm_num; linarith) (by linarith)

theorem md : 3.7e-4 < L.md := by
  obtain ⟨R3, dR⟩ := M.rounded
  obtain ⟨w1, w2, w3⟩ := M.weights
  obtain ⟨v1, v2⟩ := M.knife3
  have v4 := M.knife4
  obtain ⟨x1, x2⟩ := M.xae
  have dk : ∀ d, doubleKnife L.wn (d - L.dla) (L.tha + d * L.gme) L.dl₀ L.dl₁ = 2 * knifeEdge (clampV2 (L.knifeArg 22000 d)) := by
    intro d
    unfold doubleKnife Link.knifeArg
    rw [M.dl0, M.dl1]; ring
  have ke : ∀ v : ℝ, 100 ≤ v → knifeEdge (clampV2 v) = 12.953 + 4.343 * Real.log v := by
    intro v hv
    have c : clampV2 v = v := if_neg (by linarith)
    rw [c]; unfold knifeEdge
    rw [if_neg (by norm_num; linarith)]
  have hD : 6 ≤ L.diffraction L.d4 - L.diffraction L.d3 := by
    unfold Link.diffraction
    dsimp only
    rw [dk, dk, ke _ v1, ke _ (by linarith)]
    have lm := Real.log_le_log (by linarith) (show L.knifeArg 22000 L.d3 ≤ L.knifeArg 22000 L.d4 by linarith)
    have l3 := log_le_pow2 (y := L.knifeArg 22000 L.d3) 7 (by linarith)
    have l := log2_bounds.2
    generalize roundedEarth L.wn (L.d4 - L.dla) (L.tha + L.d4 * L.gme) L.zInv L.xht L.aht = A4 at *
    generalize roundedEarth L.wn (L.d3 - L.dla) (L.tha + L.d3 * L.gme) L.zInv L.xht L.aht = A3 at *
    generalize diffWeight L.wn L.dh L.wd1 L.xd1 L.d4 = w at *
    generalize diffWeight L.wn L.dh L.wd1 L.xd1 L.d3 = u at *
    generalize L.knifeArg 22000 L.d3 = V3 at *
    generalize Real.log (L.knifeArg 22000 L.d4) = K4 at *
    generalize Real.log V3 = K3 at *
    generalize clutter L.wn L.dh L.hg₀ L.hg₁ L.dlsa = cl
    have up : 2 * (12.953 + 4.343 * K3) ≤ 85 := by norm_num at *; linarith
    have m1 := mul_le_mul w1 dR (by norm_num) (le_trans (by norm_num) w1)
    have m2 : 0 ≤ (1 - w) * (K4 - K3) := mul_nonneg (by linarith) (by linarith)
    have m3 : 0 ≤ (w - u) * (A3 - 2 * (12.953 + 4.343 * K3)) := mul_nonneg (by linarith) (by linarith)
    norm_num at *; linarith
  unfold Link.md
  rw [M.d4.2.2, lt_div_iff₀ (by linarith)]
  generalize L.diffraction L.d4 - L.diffraction L.d3 = D at *
  norm_num at *; linarith

/-! ### Scatter -/

theorem angle_ge {d : ℝ} (hd : 244000 ≤ d) : 0.045 ≤ L.scatterAngle d := by
  rw [M.scatter]
  have := mul_le_mul (show 222000 ≤ d - 22000 by linarith) mesa_k.1 (by norm_num) (by linarith)
  norm_num at *; linarith

/-- The link as inputs of `lrprop`. -/
noncomputable def inputs (L : Link) : LrIn ℝ :=
  { hg := ⟨L.hg₀, L.hg₁⟩, he := ⟨L.he₀, L.he₁⟩, dl := ⟨L.dl₀, L.dl₁⟩, the := ⟨L.the₀, L.the₁⟩, wn := L.wn, dh := L.dh, ens := L.ens, gme := L.gme,
    zgnd := ⟨L.z.re, L.z.im⟩ }

omit M in
theorem inputs_gain (d : ℝ) : (linkOf (blank 1 (inputs L))).scatterGain d = L.scatterGain d := rfl

theorem ad : L.ad = 0 := by
  unfold Link.ad
  rw [M.dl0, M.dl1, sub_self, abs_zero]

theorem rr : L.rr = 1 := by
  unfold Link.rr
  rw [M.he0, M.he1]
  norm_num

theorem gain {d : ℝ} (hd : 244000 ≤ d) : 0 ≤ L.scatterGain d ∧ L.scatterGain d ≤ 3 := by
  have hth := M.angle_ge hd
  have eq : (-1 : ℝ) ≤ 0.031 - 0.00232 * (blank 1 (inputs L)).ens + 5.67e-6 * (blank 1 (inputs L)).ens ^ 2 := by
    show (-1 : ℝ) ≤ 0.031 - 0.00232 * L.ens + 5.67e-6 * L.ens ^ 2
    rw [M.ens]
    norm_num
  have hth' : (0.045 : ℝ) ≤ (blank 0 (inputs L)).the.x0 + (blank 0 (inputs L)).the.x1 + d * (blank 0 (inputs L)).gme := hth
  obtain ⟨h, hh, h0, hb⟩ := ascatH0_ok (d := d) (p := blank 0 (inputs L))
    (s := ⟨L.ad, L.rr, 0.031 - 0.00232 * (blank 1 (inputs L)).ens + 5.67e-6 * (blank 1 (inputs L)).ens ^ 2, -15⟩)
    (show (0 : ℝ) < L.wn by rw [M.wn]; norm_num)
    (show (0 : ℝ) < L.he₀ by rw [M.he0]; norm_num) (show (0 : ℝ) < L.he₁ by rw [M.he1]; norm_num)
    (lt_of_lt_of_le (by norm_num) hth') (by rw [M.ad]) (by show L.ad < d; rw [M.ad]; linarith) (by show 0 < L.rr; rw [M.rr]; norm_num) eq
  have ev := Props.ascatH0_spec (p := blank 1 (inputs L)) (s := ⟨L.ad, L.rr, 0.031 - 0.00232 * (blank 1 (inputs L)).ens + 5.67e-6 * (blank 1 (inputs L)).ens ^ 2, -15⟩)
    rfl rfl rfl hh
  rw [if_neg (by norm_num), inputs_gain] at ev
  rw [← ev]
  refine ⟨h0, hb.trans (max_le (h0Bound_small (y := 24000 * ((blank 0 (inputs L)).the.x0 + (blank 0 (inputs L)).the.x1 + d * (blank 0 (inputs L)).gme)) ?_ ?_ ?_) (by norm_num))⟩
  · norm_num at hth' ⊢; linarith
  · show 2.0 * L.wn * _ * L.he₀ = _
    rw [M.wn, M.he0]
    norm_num; ring
  · show 2.0 * L.wn * _ * L.he₁ = _
    rw [M.wn, M.he1]
    norm_num; ring

theorem d5 : L.d5 = 244000 := by unfold Link.d5; rw [M.dla]; norm_num
theorem d6 : L.d6 = 444000 := by unfold Link.d6; rw [M.dla]; norm_num

theorem eta {d : ℝ} (hd : 244000 ≤ d) : 1 < L.eta d := by
  have s1 := M.angle_ge hd
  have z : 2700 ≤ L.z0 d := by
    have : L.z0 d = d * L.scatterAngle d / 4 := by
      have : d ≠ 0 := by linarith
      unfold Link.z0
      rw [M.ad]
      field_simp
      ring
    rw [this]
    have := mul_le_mul hd s1 (by norm_num) (by linarith)
    norm_num at *; linarith
  unfold Link.eta
  have hE : Real.exp (-(min 1.7 (L.z0 d / 8000)) ^ 6) ≤ 1 := by
    refine Real.exp_le_one_iff.2 ?_
    rw [neg_nonpos]
    positivity
  rw [M.ens]
  generalize Real.exp (-(min 1.7 (L.z0 d / 8000)) ^ 6) = E at *
  have b : (0.85 : ℝ) ≤ 1 + (0.031 - 0.00232 * 314 + 5.67e-6 * 314 ^ 2) * E := by norm_num; linarith
  have a : (1.5 : ℝ) ≤ L.z0 d / 1755.6 := by rw [le_div_iff₀ (by norm_num)]; norm_num; linarith
  have := mul_le_mul a b (by norm_num) (le_trans (by norm_num) a)
  exact lt_of_lt_of_le (by norm_num) this

theorem usable {d : ℝ} (hd : 244000 ≤ d) : 0.2 < L.scatterR L.he₀ d := by
  unfold Link.scatterR
  rw [M.wn, M.he0]
  have := M.angle_ge hd
  norm_num at *; linarith

theorem th5 : 0.0454 ≤ L.tha + L.d5 * L.gme ∧ L.tha + L.d5 * L.gme ≤ 0.0456 := by
  obtain ⟨k1, k2⟩ := mesa_k
  rw [M.angle, M.d5]
  constructor <;> (norm_num at *; linarith)

theorem th6 : 0.0683 ≤ L.tha + L.d6 * L.gme ∧ L.tha + L.d6 * L.gme ≤ 0.0686 := by
  obtain ⟨k1, k2⟩ := mesa_k
  rw [M.angle, M.d6]
  constructor <;> (norm_num at *; linarith)

theorem gain5 : L.gain5 = L.scatterGain L.d5 := by
  unfold Link.gain5
  have g5 := (M.gain M.d5.ge).2
  have g6 := (M.gain (d := L.d6) (by rw [M.d6]; norm_num)).2
  rw [if_neg (by rintro (h | h) <;> linarith)]

theorem a5 : 60 ≤ L.a5 ∧ L.a5 ≤ 140 := by
  obtain ⟨g0, g1⟩ := M.gain M.d5.ge
  obtain ⟨t1, t2⟩ := M.th5
  unfold Link.a5
  rw [M.gain5]
  unfold Link.scatterAtt scatterCurve
  dsimp only
  generalize L.scatterGain L.d5 = g at *
  rw [M.ens, M.wn]
  generalize L.tha + L.d5 * L.gme = t at *
  rw [M.d5, if_neg (by norm_num at *; linarith), if_pos (by norm_num at *; linarith)]
  have hE : Real.exp (-t * 244000 / 40000) ≤ 1 := Real.exp_le_one_iff.2 (by norm_num at *; linarith)
  have hE0 := Real.exp_pos (-t * 244000 / 40000)
  have pu : 1 ≤ t * 244000 := by norm_num at *; linarith
  have l1 := Real.log_nonneg pu
  have l2 := log_le_pow2 (y := t * 244000) 13 (by linarith)
  obtain ⟨b1, b2⟩ := log2_bounds
  have q1 := pow_le_pow_left₀ (by norm_num) t1 4
  have q2 := pow_le_pow_left₀ (le_trans (by norm_num) t1) t2 4
  have n1 : 0 < 47.7 * 400 * t ^ 4 := by norm_num at *; linarith
  have m2 := Real.log_nonpos (x := 47.7 * 400 * t ^ 4) n1.le (by norm_num at *; linarith)
  have m1 : -4 ≤ Real.log (47.7 * 400 * t ^ 4) := by
    have h := Real.log_le_log (x := 0.05) (by norm_num) (show 0.05 ≤ 47.7 * 400 * t ^ 4 by norm_num at *; linarith)
    have := log_le_pow2 (y := 20) 4 (by norm_num)
    rw [show (0.05 : ℝ) = (20 : ℝ)⁻¹ by norm_num, Real.log_inv] at h
    norm_num at *; linarith
  generalize Real.log (47.7 * 400 * t ^ 4) = B at *
  generalize Real.exp (-t * 244000 / 40000) = E at *
  generalize Real.log (t * 244000) = A at *
  generalize Real.log 2 = T at *
  clear q1 q2 n1
  constructor <;> (norm_num at *; linarith)

theorem a6 : L.a6 ≤ 120 := by
  obtain ⟨g0, g1⟩ := M.gain (d := L.d6) (by rw [M.d6]; norm_num)
  obtain ⟨t1, t2⟩ := M.th6
  unfold Link.a6 Link.scatterAtt scatterCurve
  dsimp only
  generalize L.scatterGain L.d6 = g at *
  rw [M.ens, M.wn]
  generalize L.tha + L.d6 * L.gme = t at *
  rw [M.d6, if_neg (by norm_num at *; linarith), if_pos (by norm_num at *; linarith)]
  have hE0 := Real.exp_pos (-t * 444000 / 40000)
  have pu : 1 ≤ t * 444000 := by norm_num at *; linarith
  have l1 := Real.log_nonneg pu
  have q1 := pow_le_pow_left₀ (by norm_num) t1 4
  have q2 := pow_le_pow_left₀ (le_trans (by norm_num) t1) t2 4
  have m2 := Real.log_nonpos (x := 47.7 * 400 * t ^ 4) (by norm_num at *; linarith) (by norm_num at *; linarith)
  generalize Real.log (47.7 * 400 * t ^ 4) = B at *
  generalize Real.exp (-t * 444000 / 40000) = E at *
  generalize Real.log (t * 444000) = A at *
  clear q1 q2
  norm_num at *; linarith

theorem notParallel : ¬ L.Parallel := by
  have s : L.ms < L.md := by
    refine lt_of_le_of_lt ?_ M.md
    unfold Link.ms
    rw [M.d5, M.d6, div_le_iff₀ (by norm_num)]
    have := M.a5.1
    have := M.a6
    norm_num at *; linarith
  rintro ⟨-, h⟩
  have e := (Link.gain5'_eq (L := L) (.inl (M.usable (d := L.d6) (by rw [M.d6]; norm_num)).le)).2
  rw [e] at h
  exact s.ne' h

/-- Beyond its horizon the link is in general position. -/
theorem clear {d : ℝ} (hd : 46000 ≤ d) : L.Clear d := by
  have hs : L.dlsa < d := by linarith [M.dlsa.2]
  have l5 : 244000 ≤ L.d5 := M.d5.ge
  have l6 : 244000 ≤ L.d6 := by rw [M.d6]; norm_num
  obtain ⟨u1, u2⟩ := M.th5
  obtain ⟨v1, v2⟩ := M.th6
  refine ⟨M.diff, hs.ne', fun h => absurd h (not_lt.2 hs.le), fun _ => ⟨?_, ?_, .inr (M.he0.trans M.he1.symm), ?_, ?_⟩⟩
  · refine ⟨.inl (M.usable l5), (M.eta l5).ne', ne_of_lt (by linarith [(M.gain l5).2]), ?_, ?_⟩
    · generalize L.tha + L.d5 * L.gme = t at *
      rw [M.d5]; intro h; norm_num at *; linarith
    · generalize L.tha + L.d5 * L.gme = t at *
      rw [M.d5]; intro h; norm_num at *; linarith
  · refine ⟨.inl (M.usable l6), (M.eta l6).ne', ne_of_lt (by linarith [(M.gain l6).2]), ?_, ?_⟩
    · generalize L.tha + L.d6 * L.gme = t at *
      rw [M.d6]; intro h; norm_num at *; linarith
    · generalize L.tha + L.d6 * L.gme = t at *
      rw [M.d6]; intro h; norm_num at *; linarith
  · intro h
    have := (M.gain l5).2
    linarith
  · exact ne_of_lt (by linarith [M.a5.2])

theorem link_usable : L.Usable := by
  obtain ⟨h1, h2⟩ := M.horizon
  obtain ⟨k1, k2⟩ := mesa_k
  have t : |(0.01 - 11000 * mesaK : ℝ)| ≤ 0.2 := by rw [abs_le]; constructor <;> (norm_num at *; linarith)
  refine ⟨⟨?_, ?_, ?_, ?_⟩, ⟨?_, ?_, ?_, ?_⟩, ?_, ?_⟩
  · rw [M.hg0]; norm_num
  · rw [M.the0]; exact t
  · rw [M.he0, M.gme, M.dl0]; norm_num; linarith
  · rw [M.he0, M.gme, M.dl0]; linarith
  · rw [M.hg1]; norm_num
  · rw [M.the1]; exact t
  · rw [M.he1, M.gme, M.dl1]; norm_num; linarith
  · rw [M.he1, M.gme, M.dl1]; linarith
  · rw [M.he0]; norm_num
  · rw [M.he1]; norm_num

end Mesa

end Itm
