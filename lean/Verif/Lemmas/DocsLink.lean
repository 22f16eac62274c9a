import Verif.Spec.Answered
import Verif.Lemmas.LogBounds

/-! The link of the documentation (41.5 MHz over 77.8 km, antennas of 143.9 and 8.5 m): the diffraction line starts above zero, so the
line-of-sight fit has no coincidence. -/

namespace Itm.Spec
open Itm

theorem third_bounds {x a b : ℝ} (ha : 0 ≤ a) (hb : 0 ≤ b) (h1 : a ^ 3 ≤ x) (h2 : x ≤ b ^ 3) : a ≤ x ^ (1 / 3 : ℝ) ∧ x ^ (1 / 3 : ℝ) ≤ b := by
  have e : ∀ y : ℝ, 0 ≤ y → (y ^ 3) ^ (1 / 3 : ℝ) = y := by
    intro y hy
    rw [← Real.rpow_natCast, ← Real.rpow_mul hy]; norm_num
  have hx : 0 ≤ x := le_trans (by positivity) h1
  constructor
  · have := Real.rpow_le_rpow (by positivity) h1 (show (0:ℝ) ≤ 1 / 3 by norm_num)
    rwa [e a ha] at this
  · have := Real.rpow_le_rpow hx h2 (show (0:ℝ) ≤ 1 / 3 by norm_num)
    rwa [e b hb] at this

/-- The parameters of the documented link, roughly. -/
structure DocsLink (L : Link) : Prop where
  wn : L.wn = 41.5 / 47.7
  g1 : 1.147e-7 ≤ L.gme
  g2 : L.gme ≤ 1.149e-7
  a1 : 240.4 ≤ L.he₀
  a2 : L.he₀ ≤ 240.6
  b1 : 18.3 ≤ L.he₁
  b2 : L.he₁ ≤ 18.5
  dl0 : L.dl₀ = 111 * (77800 / 156)
  dl1 : L.dl₁ = 39 * (77800 / 156)
  t1 : -0.00345 ≤ L.the₀ + L.the₁
  t2 : L.the₀ + L.the₁ ≤ -0.0034
  hg0 : L.hg₀ = 143.9
  hg1 : L.hg₁ = 8.5
  known : L.known = true
  z1 : 3.75 ≤ ‖L.z‖
  z2 : ‖L.z‖ ≤ 3.78
  dh : 0 ≤ L.dh

namespace DocsLink
variable {L : Link} (h : DocsLink L)
include h

theorem g : 0 < L.gme := lt_of_lt_of_le (by norm_num) h.g1

theorem dla : L.dla = 150 * (77800 / 156) := by unfold Link.dla; rw [h.dl0, h.dl1]; ring

theorem tha : L.tha = L.the₀ + L.the₁ := by
  unfold Link.tha
  refine max_eq_left ?_
  have := h.t1; have := h.g1
  rw [h.dla]
  norm_num at *; linarith

theorem dlsa_bounds : 82000 ≤ L.dlsa ∧ L.dlsa ≤ 83500 := by
  unfold Link.dlsa smoothHorizon
  have hg := h.g
  have g1 := h.g1; have g2 := h.g2; have a1 := h.a1; have a2 := h.a2; have b1 := h.b1; have b2 := h.b2
  have l0 : 64400 ≤ √(2 * L.he₀ / L.gme) := by
    refine Real.le_sqrt_of_sq_le ?_
    rw [le_div_iff₀ hg]; norm_num at *; linarith
  have u0 : √(2 * L.he₀ / L.gme) ≤ 65000 := by
    rw [Real.sqrt_le_left (by norm_num), div_le_iff₀ hg]; norm_num at *; linarith
  have l1 : 17700 ≤ √(2 * L.he₁ / L.gme) := by
    refine Real.le_sqrt_of_sq_le ?_
    rw [le_div_iff₀ hg]; norm_num at *; linarith
  have u1 : √(2 * L.he₁ / L.gme) ≤ 18100 := by
    rw [Real.sqrt_le_left (by norm_num), div_le_iff₀ hg]; norm_num at *; linarith
  constructor <;> linarith

theorem xae_bounds : 44300 ≤ L.xae ∧ L.xae ≤ 44390 := by
  have hg := h.g
  have hw : 0 < L.wn := by rw [h.wn]; norm_num
  have s1 : (1.147e-7 : ℝ) ^ 2 ≤ L.gme ^ 2 := pow_le_pow_left₀ (by norm_num) h.g1 2
  have s2 : L.gme ^ 2 ≤ (1.149e-7 : ℝ) ^ 2 := pow_le_pow_left₀ hg.le h.g2 2
  unfold Link.xae
  rw [Real.rpow_neg (by positivity), ← Real.inv_rpow (by positivity), h.wn]
  refine third_bounds (by norm_num) (by norm_num) ?_ ?_
  · rw [le_inv_comm₀ (by norm_num) (by positivity)]
    generalize L.gme ^ 2 = y at *
    norm_num at *; linarith
  · rw [inv_le_comm₀ (by positivity) (by norm_num)]
    generalize L.gme ^ 2 = y at *
    norm_num at *; linarith

theorem d3 : L.d3 = L.dla + 1.3787 * L.xae := by
  unfold Link.d3
  refine max_eq_right ?_
  have := h.dlsa_bounds; have := h.xae_bounds
  rw [h.dla]; norm_num at *; linarith

theorem zInv_bounds : 0.2645 ≤ L.zInv ∧ L.zInv ≤ 0.2667 := by
  have z1 := h.z1; have z2 := h.z2
  unfold Link.zInv
  have : 0 < ‖L.z‖ := lt_of_lt_of_le (by norm_num) z1
  constructor
  · rw [le_div_iff₀ this]; norm_num at *; linarith
  · rw [div_le_iff₀ this]; norm_num at *; linarith

/-- The angle at a distance. -/
theorem th_bounds {s lo hi : ℝ} (h1 : lo ≤ s) (h2 : s ≤ hi) (h0 : 0 < lo) :
    (150 * (77800 / 156) + lo) * 1.147e-7 - 0.00345 ≤ L.tha + (L.dla + s) * L.gme ∧
      L.tha + (L.dla + s) * L.gme ≤ (150 * (77800 / 156) + hi) * 1.149e-7 - 0.0034 := by
  rw [h.tha, h.dla]
  have m1 : (150 * (77800 / 156) + lo) * 1.147e-7 ≤ (150 * (77800 / 156) + s) * L.gme :=
    mul_le_mul (by linarith) h.g1 (by norm_num) (by linarith)
  have m2 : (150 * (77800 / 156) + s) * L.gme ≤ (150 * (77800 / 156) + hi) * 1.149e-7 :=
    mul_le_mul (by linarith) h.g2 h.g.le (by linarith)
  have := h.t1; have := h.t2
  constructor <;> linarith

omit h in
/-- The argument of the rounded-earth formula, from bounds of its parts. -/
theorem arg_bounds {k s t z x b t1 t2 z1 z2 c1 c2 : ℝ} (ht : 0 < t) (hb : b = (s / t * k) ^ (1 / 3 : ℝ)) (hb0 : 0 < b)
    (c1b : c1 ≤ b) (c2b : b ≤ c2) (t1t : t1 ≤ t) (t2t : t ≤ t2) (zz1 : z1 ≤ z) (zz2 : z ≤ z2) (hc : z2 ≤ 1.607 * c1) (h1 : 0 ≤ t1) :
    151 * t1 * (1.607 * c1 - z2) + x ≤ roundedArg k s t z x ∧ roundedArg k s t z x ≤ 151 * t2 * (1.607 * c2 - z1) + x := by
  unfold roundedArg
  rw [← hb]
  have e : (1.607 - z / b) * 151 * b * t = 151 * t * (1.607 * b - z) := by field_simp
  rw [e]
  have m1 : t1 * (1.607 * c1 - z2) ≤ t * (1.607 * b - z) := mul_le_mul t1t (by linarith) (by linarith) ht.le
  have m2 : t * (1.607 * b - z) ≤ t2 * (1.607 * c2 - z1) := mul_le_mul t2t (by linarith) (by linarith) (by linarith)
  constructor <;> nlinarith

/-- The argument of the nearer terminal. -/
theorem x0_bounds : 371.9 ≤ terminalArg L.wn L.zInv L.dl₀ L.he₀ ∧ terminalArg L.wn L.zInv L.dl₀ L.he₀ ≤ 373.6 := by
  obtain ⟨z1, z2⟩ := h.zInv_bounds
  have a1 := h.a1; have a2 := h.a2
  have ha : 0 < L.he₀ := lt_of_lt_of_le (by norm_num) a1
  unfold terminalArg
  rw [h.wn, h.dl0]
  have t1 : 0.008685 ≤ 2 * L.he₀ / (111 * (77800 / 156)) := by rw [le_div_iff₀ (by norm_num)]; norm_num at *; linarith
  have t2 : 2 * L.he₀ / (111 * (77800 / 156)) ≤ 0.008693 := by rw [div_le_iff₀ (by norm_num)]; norm_num at *; linarith
  generalize 2 * L.he₀ / (111 * (77800 / 156)) = t at *
  have ht : 0 < t := lt_of_lt_of_le (by norm_num) t1
  have hb : 176.9 ≤ (111 * (77800 / 156) / t * (41.5 / 47.7)) ^ (1 / 3 : ℝ) ∧ (111 * (77800 / 156) / t * (41.5 / 47.7)) ^ (1 / 3 : ℝ) ≤ 177.05 := by
    refine third_bounds (by norm_num) (by norm_num) ?_ ?_
    · rw [div_mul_eq_mul_div, le_div_iff₀ ht]; norm_num at *; linarith
    · rw [div_mul_eq_mul_div, div_le_iff₀ ht]; norm_num at *; linarith
  have := arg_bounds (x := 0) ht rfl (by linarith [hb.1]) hb.1 hb.2 t1 t2 z1 z2 (by norm_num) (by norm_num)
  generalize roundedArg (41.5 / 47.7) (111 * (77800 / 156)) t L.zInv 0 = y at *
  norm_num at *
  constructor <;> linarith

/-- The argument of the farther terminal. -/
theorem x1_bounds : 94.4 ≤ terminalArg L.wn L.zInv L.dl₁ L.he₁ ∧ terminalArg L.wn L.zInv L.dl₁ L.he₁ ≤ 96.1 ∧
    terminalK L.wn L.zInv L.dl₁ L.he₁ ≤ 0.0013 ∧ 0 < terminalK L.wn L.zInv L.dl₁ L.he₁ := by
  obtain ⟨z1, z2⟩ := h.zInv_bounds
  have a1 := h.b1; have a2 := h.b2
  have ha : 0 < L.he₁ := lt_of_lt_of_le (by norm_num) a1
  unfold terminalArg terminalK
  rw [h.wn, h.dl1]
  rw [show (39 * (77800 / 156) : ℝ) ^ 2 / (2 * L.he₁) = 39 * (77800 / 156) / (2 * L.he₁ / (39 * (77800 / 156))) by field_simp]
  have t1 : 0.00188 ≤ 2 * L.he₁ / (39 * (77800 / 156)) := by rw [le_div_iff₀ (by norm_num)]; norm_num at *; linarith
  have t2 : 2 * L.he₁ / (39 * (77800 / 156)) ≤ 0.001903 := by rw [div_le_iff₀ (by norm_num)]; norm_num at *; linarith
  generalize 2 * L.he₁ / (39 * (77800 / 156)) = t at *
  have ht : 0 < t := lt_of_lt_of_le (by norm_num) t1
  have hb : 207.1 ≤ (39 * (77800 / 156) / t * (41.5 / 47.7)) ^ (1 / 3 : ℝ) ∧ (39 * (77800 / 156) / t * (41.5 / 47.7)) ^ (1 / 3 : ℝ) ≤ 208.1 := by
    refine third_bounds (by norm_num) (by norm_num) ?_ ?_
    · rw [div_mul_eq_mul_div, le_div_iff₀ ht]; norm_num at *; linarith
    · rw [div_mul_eq_mul_div, div_le_iff₀ ht]; norm_num at *; linarith
  have := arg_bounds (x := 0) ht rfl (by linarith [hb.1]) hb.1 hb.2 t1 t2 z1 z2 (by norm_num) (by norm_num)
  generalize roundedArg (41.5 / 47.7) (39 * (77800 / 156)) t L.zInv 0 = y at *
  generalize (39 * (77800 / 156) / t * (41.5 / 47.7)) ^ (1 / 3 : ℝ) = b at *
  have hb0 : 0 < b := by linarith [hb.1]
  refine ⟨?_, ?_, ?_, div_pos (by linarith) hb0⟩
  · norm_num at *; linarith
  · norm_num at *; linarith
  · rw [div_le_iff₀ hb0]; norm_num at *; linarith

/-- The height gains. -/
theorem aht_bounds : -30.4 ≤ L.aht ∧ L.aht ≤ -29.2 := by
  obtain ⟨x1, x2⟩ := h.x0_bounds
  obtain ⟨y1, y2, k1, k0⟩ := h.x1_bounds
  unfold Link.aht
  generalize terminalK L.wn L.zInv L.dl₀ L.he₀ = K at *
  generalize terminalArg L.wn L.zInv L.dl₀ L.he₀ = x at *
  generalize terminalK L.wn L.zInv L.dl₁ L.he₁ = k at *
  generalize terminalArg L.wn L.zInv L.dl₁ L.he₁ = y at *
  have hg1 : -38.1 ≤ heightGain y k ∧ heightGain y k ≤ -37.6 := by
    have lk : Real.log k ≤ -5.5 := by
      have h1 : Real.log k ≤ Real.log 0.0013 := Real.log_le_log k0 k1
      have h2 := log_lower (y := 512) 1 9 (by norm_num) (by norm_num)
      have h3 : Real.log (0.0013 : ℝ) ≤ -Real.log 512 := by
        rw [← Real.log_inv]; exact Real.log_le_log (by norm_num) (by norm_num)
      norm_num at *; linarith
    have hc : k < 1e-5 ∨ 5495 < y * (-Real.log k) ^ 3 := by
      right
      have : (5.5 : ℝ) ^ 3 ≤ (-Real.log k) ^ 3 := pow_le_pow_left₀ (by norm_num) (by linarith) 3
      have : 94.4 * (5.5 : ℝ) ^ 3 ≤ y * (-Real.log k) ^ 3 := mul_le_mul y1 this (by norm_num) (by linarith)
      refine lt_of_lt_of_le (by norm_num) this
    unfold heightGain nearGain
    rw [if_neg (by linarith), if_neg (by linarith), if_pos hc, if_pos (by linarith)]
    have l1 := Real.log_le_log (by norm_num) y1
    have l2 := Real.log_le_log (by linarith) y2
    have m1 := log_lower (y := 94.4) 9 59 (by norm_num) (by norm_num)
    have m2 := log_upper (y := 96.1) 17 112 (by norm_num) (by norm_num) (by norm_num)
    generalize Real.log y = ly at *
    norm_num at *
    constructor <;> linarith
  have hg0 : -12.2 ≤ heightGain x K ∧ heightGain x K ≤ -11.6 := by
    unfold heightGain nearGain farGain
    rw [if_neg (by linarith), if_pos (by linarith)]
    dsimp only
    have l1 := Real.log_le_log (by norm_num) x1
    have l2 := Real.log_le_log (by linarith) x2
    have m1 := log_lower (y := 371.9) 13 111 (by norm_num) (by norm_num)
    have m2 := log_upper (y := 373.6) 11 94 (by norm_num) (by norm_num) (by norm_num)
    have e1 : 0.154 ≤ Real.exp (-0.005 * x) := by
      rw [← Real.log_le_iff_le_exp (by norm_num)]
      have n1 := log_lower (y := 1 / 0.154) 33 89 (by norm_num) (by norm_num)
      rw [one_div, Real.log_inv] at n1
      norm_num at *; linarith
    have e2 : Real.exp (-0.005 * x) ≤ 0.1562 := by
      rw [← Real.le_log_iff_exp_le (by norm_num)]
      have n1 := log_upper (y := 1 / 0.1562) 25 67 (by norm_num) (by norm_num) (by norm_num)
      rw [one_div, Real.log_inv] at n1
      norm_num at *; linarith
    have w1 : 371.9 * 0.154 ≤ x * Real.exp (-0.005 * x) := mul_le_mul x1 e1 (by norm_num) (by linarith)
    have w2 : x * Real.exp (-0.005 * x) ≤ 373.6 * 0.1562 := mul_le_mul x2 e2 (Real.exp_pos _).le (by norm_num)
    rw [mul_assoc (0.0134 : ℝ)]
    generalize x * Real.exp (-0.005 * x) = w at *
    generalize Real.log x = lx at *
    have n1 : -14.19 ≤ 17.372 * lx - 117 := by norm_num at *; linarith
    have n2 : 17.372 * lx - 117 ≤ -14.1 := by norm_num at *; linarith
    have f1 : -4.34 ≤ 0.05751 * x - 4.343 * lx := by norm_num at *; linarith
    have f2 : 0.05751 * x - 4.343 * lx ≤ -4.2 := by norm_num at *; linarith
    have v1 : 0.767 ≤ 0.0134 * w := by norm_num at *; linarith
    have v2 : 0.0134 * w ≤ 0.7822 := by norm_num at *; linarith
    generalize 17.372 * lx - 117 = n at *
    generalize 0.05751 * x - 4.343 * lx = f at *
    generalize 0.0134 * w = v at *
    constructor <;> nlinarith
  constructor <;> norm_num at * <;> linarith

/-- The rounded-earth attenuation at both distances of the line. -/
theorem rounded3 : 53.7 ≤ roundedEarth L.wn (1.3787 * L.xae) (L.tha + (L.dla + 1.3787 * L.xae) * L.gme) L.zInv L.xht L.aht := by
  obtain ⟨z1, z2⟩ := h.zInv_bounds
  obtain ⟨q1, q2⟩ := h.xae_bounds
  obtain ⟨x1, x2⟩ := h.x0_bounds
  obtain ⟨y1, y2, -, -⟩ := h.x1_bounds
  obtain ⟨-, ha⟩ := h.aht_bounds
  obtain ⟨s, es⟩ : ∃ s, s = 1.3787 * L.xae := ⟨_, rfl⟩
  have s1 : 61076 ≤ s := by rw [es]; norm_num at *; linarith
  have s2 : s ≤ 61201 := by rw [es]; norm_num at *; linarith
  rw [← es]
  clear es
  obtain ⟨t1, t2⟩ := h.th_bounds s1 s2 (by norm_num)
  generalize L.tha + (L.dla + s) * L.gme = t at *
  have t1 : 0.012135 ≤ t := le_trans (by norm_num) t1
  have t2 : t ≤ 0.012228 := le_trans t2 (by norm_num)
  have ht : 0 < t := lt_of_lt_of_le (by norm_num) t1
  have hb : 163.1 ≤ (s / t * L.wn) ^ (1 / 3 : ℝ) ∧ (s / t * L.wn) ^ (1 / 3 : ℝ) ≤ 163.8 := by
    rw [h.wn]
    refine third_bounds (by norm_num) (by norm_num) ?_ ?_
    · rw [div_mul_eq_mul_div, le_div_iff₀ ht]; norm_num at *; linarith
    · rw [div_mul_eq_mul_div, div_le_iff₀ ht]; norm_num at *; linarith
  have := arg_bounds (x := L.xht) ht rfl (by linarith [hb.1]) hb.1 hb.2 t1 t2 z1 z2 (by norm_num) (by norm_num)
  unfold roundedEarth
  generalize roundedArg L.wn s t L.zInv L.xht = y at *
  have hx : 466.3 ≤ L.xht ∧ L.xht ≤ 469.7 := by unfold Link.xht; constructor <;> norm_num at * <;> linarith
  have r1 : 946 ≤ y := by norm_num at *; linarith
  have r2 : y ≤ 955.5 := by norm_num at *; linarith
  have l := Real.log_le_log (by linarith) r2
  have m := log_upper (y := 955.5) 11 109 (by norm_num) (by norm_num) (by norm_num)
  generalize Real.log y = ly at *
  norm_num at *; linarith

theorem rounded4 : roundedEarth L.wn (4.1361 * L.xae) (L.tha + (L.dla + 4.1361 * L.xae) * L.gme) L.zInv L.xht L.aht ≤ 92.5 ∧
    60 ≤ roundedEarth L.wn (4.1361 * L.xae) (L.tha + (L.dla + 4.1361 * L.xae) * L.gme) L.zInv L.xht L.aht := by
  obtain ⟨z1, z2⟩ := h.zInv_bounds
  obtain ⟨q1, q2⟩ := h.xae_bounds
  obtain ⟨x1, x2⟩ := h.x0_bounds
  obtain ⟨y1, y2, -, -⟩ := h.x1_bounds
  obtain ⟨ha1, ha2⟩ := h.aht_bounds
  obtain ⟨s, es⟩ : ∃ s, s = 4.1361 * L.xae := ⟨_, rfl⟩
  have s1 : 183229 ≤ s := by rw [es]; norm_num at *; linarith
  have s2 : s ≤ 183602 := by rw [es]; norm_num at *; linarith
  rw [← es]
  clear es
  obtain ⟨t1, t2⟩ := h.th_bounds s1 s2 (by norm_num)
  generalize L.tha + (L.dla + s) * L.gme = t at *
  have t1 : 0.026146 ≤ t := le_trans (by norm_num) t1
  have t2 : t ≤ 0.026292 := le_trans t2 (by norm_num)
  have ht : 0 < t := lt_of_lt_of_le (by norm_num) t1
  have hb : 182.3 ≤ (s / t * L.wn) ^ (1 / 3 : ℝ) ∧ (s / t * L.wn) ^ (1 / 3 : ℝ) ≤ 182.85 := by
    rw [h.wn]
    refine third_bounds (by norm_num) (by norm_num) ?_ ?_
    · rw [div_mul_eq_mul_div, le_div_iff₀ ht]; norm_num at *; linarith
    · rw [div_mul_eq_mul_div, div_le_iff₀ ht]; norm_num at *; linarith
  have := arg_bounds (x := L.xht) ht rfl (by linarith [hb.1]) hb.1 hb.2 t1 t2 z1 z2 (by norm_num) (by norm_num)
  unfold roundedEarth
  generalize roundedArg L.wn s t L.zInv L.xht = y at *
  have hx : 466.3 ≤ L.xht ∧ L.xht ≤ 469.7 := by unfold Link.xht; constructor <;> norm_num at * <;> linarith
  have r1 : 1621 ≤ y := by norm_num at *; linarith
  have r2 : y ≤ 1636 := by norm_num at *; linarith
  have l := Real.log_le_log (by linarith) r2
  have l' := Real.log_le_log (by norm_num) r1
  have m := log_upper (y := 1636) 1 11 (by norm_num) (by norm_num) (by norm_num)
  have m' := log_lower (y := 1621) 14 149 (by norm_num) (by norm_num)
  generalize Real.log y = ly at *
  norm_num at *
  constructor <;> linarith

omit h in
/-- Knife edges in the near range. -/
theorem knife_lower {v a b c : ℝ} (ha : a ≤ v) (hb : v ≤ b) (h0 : 0 < a) (hb2 : b < 5.76) (hc : 0 ≤ c) (hca : c ^ 2 ≤ a) :
    6.02 + 9.11 * c - 1.27 * b ≤ knifeEdge (clampV2 v) := by
  unfold clampV2
  rw [if_neg (by linarith)]
  unfold knifeEdge
  rw [if_pos (by linarith)]
  have := Real.le_sqrt_of_sq_le (hca.trans ha)
  linarith

omit h in
theorem knife_upper {v a b c : ℝ} (ha : a ≤ v) (hb : v ≤ b) (h0 : 0 < a) (hb2 : b < 5.76) (hc : 0 ≤ c) (hcb : b ≤ c ^ 2) :
    knifeEdge (clampV2 v) ≤ 6.02 + 9.11 * c - 1.27 * a := by
  unfold clampV2
  rw [if_neg (by linarith)]
  unfold knifeEdge
  rw [if_pos (by linarith)]
  have : √v ≤ c := (Real.sqrt_le_left hc).2 (hb.trans hcb)
  linarith

omit h in
/-- The knife-edge argument, from bounds of its parts. -/
theorem v_bounds {k s t a lo hi t1 t2 s1 s2 : ℝ} (hk : 0 < k) (ha : 0 < a) (h1 : s1 ≤ s) (h2 : s ≤ s2) (ht1 : t1 ≤ t) (ht2 : t ≤ t2)
    (p1 : 0 < s1) (q1 : 0 < t1) (hlo : lo ≤ 0.0795775 * k * s1 * t1 ^ 2 * a / (s1 + a)) (hhi : 0.0795775 * k * s2 * t2 ^ 2 * a / (s2 + a) ≤ hi) :
    lo ≤ 0.0795775 * k * s * t ^ 2 * a / (s + a) ∧ 0.0795775 * k * s * t ^ 2 * a / (s + a) ≤ hi := by
  have e : ∀ s t : ℝ, 0 < s → 0.0795775 * k * s * t ^ 2 * a / (s + a) = 0.0795775 * k * a * (t ^ 2 * (s / (s + a))) := by
    intro s t hs; field_simp
  have mono : ∀ x y : ℝ, 0 < x → x ≤ y → x / (x + a) ≤ y / (y + a) := by
    intro x y hx hxy
    rw [div_le_div_iff₀ (by linarith) (by linarith)]
    nlinarith
  have hs : 0 < s := by linarith
  have hs2 : 0 < s2 := by linarith
  rw [e _ _ p1] at hlo
  rw [e _ _ hs2] at hhi
  rw [e _ _ hs]
  have m1 : t1 ^ 2 * (s1 / (s1 + a)) ≤ t ^ 2 * (s / (s + a)) :=
    mul_le_mul (pow_le_pow_left₀ q1.le ht1 2) (mono _ _ p1 h1) (by positivity) (by positivity)
  have m2 : t ^ 2 * (s / (s + a)) ≤ t2 ^ 2 * (s2 / (s2 + a)) :=
    mul_le_mul (pow_le_pow_left₀ (by linarith) ht2 2) (mono _ _ hs h2) (by positivity) (by positivity)
  have hc : 0 < 0.0795775 * k * a := by positivity
  constructor
  · exact hlo.trans (mul_le_mul_of_nonneg_left m1 hc.le)
  · exact (mul_le_mul_of_nonneg_left m2 hc.le).trans hhi

theorem knife3 : 19.8 ≤ doubleKnife L.wn (1.3787 * L.xae) (L.tha + (L.dla + 1.3787 * L.xae) * L.gme) L.dl₀ L.dl₁ := by
  obtain ⟨q1, q2⟩ := h.xae_bounds
  obtain ⟨s, es⟩ : ∃ s, s = 1.3787 * L.xae := ⟨_, rfl⟩
  have s1 : 61076 ≤ s := by rw [es]; norm_num at *; linarith
  have s2 : s ≤ 61201 := by rw [es]; norm_num at *; linarith
  rw [← es]
  clear es
  obtain ⟨t1, t2⟩ := h.th_bounds s1 s2 (by norm_num)
  generalize L.tha + (L.dla + s) * L.gme = t at *
  have t1 : 0.012135 ≤ t := le_trans (by norm_num) t1
  have t2 : t ≤ 0.012228 := le_trans t2 (by norm_num)
  unfold doubleKnife
  rw [h.wn, h.dl0, h.dl1]
  obtain ⟨u1, u2⟩ := v_bounds (k := 41.5 / 47.7) (a := 111 * (77800 / 156)) (lo := 0.294) (hi := 0.302) (by norm_num) (by norm_num) s1 s2 t1 t2 (by norm_num) (by norm_num)
    (by norm_num) (by norm_num)
  obtain ⟨w1, w2⟩ := v_bounds (k := 41.5 / 47.7) (a := 39 * (77800 / 156)) (lo := 0.149) (hi := 0.154) (by norm_num) (by norm_num) s1 s2 t1 t2 (by norm_num) (by norm_num)
    (by norm_num) (by norm_num)
  have k0 := knife_lower (c := 0.542) u1 u2 (by norm_num) (by norm_num) (by norm_num) (by norm_num)
  have k1 := knife_lower (c := 0.386) w1 w2 (by norm_num) (by norm_num) (by norm_num) (by norm_num)
  norm_num at *; linarith

theorem knife4 : doubleKnife L.wn (4.1361 * L.xae) (L.tha + (L.dla + 4.1361 * L.xae) * L.gme) L.dl₀ L.dl₁ ≤ 30 ∧
    0 ≤ doubleKnife L.wn (4.1361 * L.xae) (L.tha + (L.dla + 4.1361 * L.xae) * L.gme) L.dl₀ L.dl₁ := by
  obtain ⟨q1, q2⟩ := h.xae_bounds
  obtain ⟨s, es⟩ : ∃ s, s = 4.1361 * L.xae := ⟨_, rfl⟩
  have s1 : 183229 ≤ s := by rw [es]; norm_num at *; linarith
  have s2 : s ≤ 183602 := by rw [es]; norm_num at *; linarith
  rw [← es]
  clear es
  obtain ⟨t1, t2⟩ := h.th_bounds s1 s2 (by norm_num)
  generalize L.tha + (L.dla + s) * L.gme = t at *
  have t1 : 0.026146 ≤ t := le_trans (by norm_num) t1
  have t2 : t ≤ 0.026292 := le_trans t2 (by norm_num)
  unfold doubleKnife
  rw [h.wn, h.dl0, h.dl1]
  obtain ⟨u1, u2⟩ := v_bounds (k := 41.5 / 47.7) (a := 111 * (77800 / 156)) (lo := 2) (hi := 2.04) (by norm_num) (by norm_num) s1 s2 t1 t2 (by norm_num) (by norm_num)
    (by norm_num) (by norm_num)
  obtain ⟨w1, w2⟩ := v_bounds (k := 41.5 / 47.7) (a := 39 * (77800 / 156)) (lo := 0.83) (hi := 0.843) (by norm_num) (by norm_num) s1 s2 t1 t2 (by norm_num) (by norm_num)
    (by norm_num) (by norm_num)
  have k0 := knife_upper (c := 1.4285) u1 u2 (by norm_num) (by norm_num) (by norm_num) (by norm_num)
  have k1 := knife_upper (c := 0.9185) w1 w2 (by norm_num) (by norm_num) (by norm_num) (by norm_num)
  have l0 := knife_lower (c := 1) u1 u2 (by norm_num) (by norm_num) (by norm_num) (by norm_num)
  have l1 := knife_lower (c := 0) w1 w2 (by norm_num) (by norm_num) (by norm_num) (by norm_num)
  constructor <;> norm_num at * <;> linarith

/-- The weight of the rounded earth hardly grows from the first to the second distance. -/
theorem weight_bounds {d d' : ℝ} (h1 : 135000 ≤ d) (hdd : d ≤ d') :
    let w := diffWeight L.wn L.dh L.wd1 L.xd1 d
    let w' := diffWeight L.wn L.dh L.wd1 L.xd1 d'
    0 ≤ w ∧ w ≤ 1 ∧ w' - w ≤ 0.06 := by
  have hw : 0 < L.wn := by rw [h.wn]; norm_num
  have hd := h.dh
  have c1 : 1.8 ≤ L.wd1 := by
    unfold Link.wd1
    rw [h.hg0, h.hg1, h.known, if_pos rfl]
    refine Real.le_sqrt_of_sq_le ?_
    have m : 240.4 * 18.3 ≤ L.he₀ * L.he₁ := mul_le_mul h.a1 h.b1 (by norm_num) (by linarith [h.a1])
    generalize L.he₀ * L.he₁ = y at *
    have : 2.26 ≤ (y - 143.9 * 8.5) / (143.9 * 8.5 + 10) := by rw [le_div_iff₀ (by norm_num)]; norm_num at *; linarith
    norm_num at *; linarith
  have c2 : 0 ≤ L.xd1 ∧ L.xd1 ≤ 46000 := by
    unfold Link.xd1
    rw [h.tha, h.dla]
    have hg := h.g; have g1 := h.g1; have t1 := h.t1; have t2 := h.t2
    have l : -31000 ≤ (L.the₀ + L.the₁) / L.gme := by rw [le_div_iff₀ hg]; norm_num at *; linarith
    have u : (L.the₀ + L.the₁) / L.gme ≤ -29500 := by rw [div_le_iff₀ hg]; have := h.g2; norm_num at *; linarith
    constructor <;> norm_num at * <;> linarith
  have i0 : 0 ≤ irregularity L.dh d := by
    unfold irregularity
    have : Real.exp (-d / 50000) ≤ 1 := Real.exp_le_one_iff.2 (by rw [div_nonpos_iff]; right; constructor <;> linarith)
    exact mul_nonneg (by linarith) hd
  have i1 : irregularity L.dh d ≤ irregularity L.dh d' := by
    unfold irregularity
    have : Real.exp (-d' / 50000) ≤ Real.exp (-d / 50000) := Real.exp_le_exp.2 (by gcongr)
    exact mul_le_mul_of_nonneg_right (by linarith) hd
  have m0 : 0 ≤ min (irregularity L.dh d * L.wn) 6283.2 := le_min (mul_nonneg i0 hw.le) (by norm_num)
  have m1 : min (irregularity L.dh d * L.wn) 6283.2 ≤ min (irregularity L.dh d' * L.wn) 6283.2 :=
    min_le_min (mul_le_mul_of_nonneg_right i1 hw.le) le_rfl
  have x1 : 0 ≤ L.xd1 / d' := div_nonneg c2.1 (by linarith)
  have x2 : L.xd1 / d ≤ 0.341 := by rw [div_le_iff₀ (by linarith)]; norm_num at *; linarith
  have x3 : 0 ≤ L.xd1 / d := div_nonneg c2.1 (by linarith)
  unfold diffWeight
  dsimp only
  generalize min (irregularity L.dh d * L.wn) 6283.2 = m at *
  generalize min (irregularity L.dh d' * L.wn) 6283.2 = m' at *
  generalize L.xd1 / d = y at *
  generalize L.xd1 / d' = y' at *
  generalize L.wd1 = c at *
  have sq : 0.9 * √((c + y) * m) ≤ √((c + y') * m') := by
    refine Real.le_sqrt_of_sq_le ?_
    rw [mul_pow, Real.sq_sqrt (mul_nonneg (by linarith) m0)]
    have k1 : 0.9 ^ 2 * (c + y) ≤ c + y' := by norm_num at *; linarith
    calc 0.9 ^ 2 * ((c + y) * m) = 0.9 ^ 2 * (c + y) * m := by ring
      _ ≤ (c + y') * m' := mul_le_mul k1 m1 m0 (by linarith)
  have s0 := Real.sqrt_nonneg ((c + y) * m)
  generalize √((c + y) * m) = s at *
  generalize √((c + y') * m') = s' at *
  have a0 : 0 < 25.1 + s := by positivity
  have a1 : 0 < 25.1 + 0.9 * s := by positivity
  refine ⟨by positivity, by rw [div_le_one a0]; linarith, ?_⟩
  have b1 : 25.1 / (25.1 + s') ≤ 25.1 / (25.1 + 0.9 * s) := by gcongr
  have b2 : 25.1 / (25.1 + 0.9 * s) - 25.1 / (25.1 + s) ≤ 0.06 := by
    rw [div_sub_div _ _ a1.ne' a0.ne', div_le_iff₀ (mul_pos a1 a0)]
    nlinarith [sq_nonneg s]
  linarith

/-- **The diffraction line starts above zero.** -/
theorem aed : 0 ≤ L.diffLine 0 := by
  obtain ⟨q1, q2⟩ := h.xae_bounds
  have hx : 0 < L.xae := by linarith
  have e3 := h.d3
  have e4 : L.d4 = L.dla + 4.1361 * L.xae := by unfold Link.d4; rw [e3]; ring
  have hr3 := h.rounded3
  obtain ⟨hr4, hr4'⟩ := h.rounded4
  have hk3 := h.knife3
  obtain ⟨hk4, hk4'⟩ := h.knife4
  have hdla := h.dla
  have hW := h.weight_bounds (d := L.d3) (d' := L.d4) (by rw [e3, hdla]; norm_num at *; linarith) (by rw [e3, e4]; linarith)
  have hc : 0 ≤ clutter L.wn L.dh L.hg₀ L.hg₁ L.dlsa := by
    unfold clutter
    refine le_min (by norm_num) (mul_nonneg (by norm_num) (Real.log_nonneg ?_))
    have hw : 0 < L.wn := by rw [h.wn]; norm_num
    have hi : 0 ≤ irregularity L.dh L.dlsa := by
      unfold irregularity
      have : Real.exp (-L.dlsa / 50000) ≤ 1 := Real.exp_le_one_iff.2 (by rw [div_nonpos_iff]; right; constructor <;> linarith [h.dlsa_bounds.1])
      exact mul_nonneg (by linarith) h.dh
    have : 0 ≤ 4.77e-4 * L.hg₀ * L.hg₁ * L.wn * terrainSigma (irregularity L.dh L.dlsa) := by
      unfold terrainSigma
      rw [h.hg0, h.hg1]
      positivity
    linarith
  have k : (L.dla + 1.3787 * L.xae) / (2.7574 * L.xae) ≤ 1.1125 := by
    rw [div_le_iff₀ (by positivity), hdla]; norm_num at *; linarith
  have k0 : 0 < (L.dla + 1.3787 * L.xae) / (2.7574 * L.xae) := by rw [hdla]; positivity
  have e : L.diffLine 0 = L.diffraction L.d3 - (L.dla + 1.3787 * L.xae) / (2.7574 * L.xae) * (L.diffraction L.d4 - L.diffraction L.d3) := by
    unfold Link.diffLine Link.md
    rw [show L.d4 - L.d3 = 2.7574 * L.xae by rw [e3, e4]; ring]
    rw [e3]
    ring
  rw [e]
  unfold Link.diffraction
  dsimp only at hW ⊢
  rw [show L.d4 - L.dla = 4.1361 * L.xae by rw [e4]; ring, show L.d3 - L.dla = 1.3787 * L.xae by rw [e3]; ring]
  rw [← e3] at hr3 hk3
  rw [← e4] at hr4 hr4' hk4 hk4'
  generalize clutter L.wn L.dh L.hg₀ L.hg₁ L.dlsa = C at *
  generalize diffWeight L.wn L.dh L.wd1 L.xd1 L.d3 = w at *
  generalize diffWeight L.wn L.dh L.wd1 L.xd1 L.d4 = w' at *
  generalize roundedEarth L.wn (1.3787 * L.xae) (L.tha + L.d3 * L.gme) L.zInv L.xht L.aht = A at *
  generalize roundedEarth L.wn (4.1361 * L.xae) (L.tha + L.d4 * L.gme) L.zInv L.xht L.aht = A' at *
  generalize doubleKnife L.wn (1.3787 * L.xae) (L.tha + L.d3 * L.gme) L.dl₀ L.dl₁ = B at *
  generalize doubleKnife L.wn (4.1361 * L.xae) (L.tha + L.d4 * L.gme) L.dl₀ L.dl₁ = B' at *
  generalize (L.dla + 1.3787 * L.xae) / (2.7574 * L.xae) = c at *
  obtain ⟨w0, w1, w2⟩ := hW
  have p1 : 8 ≤ A - c * (A' - A) := by
    have : c * (A' - A) ≤ c * (92.5 - 53.7) := mul_le_mul_of_nonneg_left (by linarith) k0.le
    norm_num at *; linarith
  have p2 : 8 ≤ B - c * (B' - B) := by
    have : c * (B' - B) ≤ c * (30 - 19.8) := mul_le_mul_of_nonneg_left (by linarith) k0.le
    norm_num at *; linarith
  have p3 : c * ((w' - w) * (A' - B')) ≤ 1.1125 * (0.06 * 92.5) := by
    have a : (w' - w) * (A' - B') ≤ 0.06 * 92.5 := mul_le_mul w2 (by linarith) (by linarith) (by norm_num)
    have b : c * ((w' - w) * (A' - B')) ≤ c * (0.06 * 92.5) := mul_le_mul_of_nonneg_left a k0.le
    have b' : c * (0.06 * 92.5) ≤ 1.1125 * (0.06 * 92.5) := mul_le_mul_of_nonneg_right k (by norm_num)
    linarith
  have e : w * A + (1 - w) * B + C - c * (w' * A' + (1 - w') * B' + C - (w * A + (1 - w) * B + C)) =
      w * (A - c * (A' - A)) + (1 - w) * (B - c * (B' - B)) + C - c * ((w' - w) * (A' - B')) := by ring
  rw [e]
  have q : 8 ≤ w * (A - c * (A' - A)) + (1 - w) * (B - c * (B' - B)) := by nlinarith
  norm_num at *; linarith

/-- The fit has no coincidence. -/
theorem no_clash : ¬ L.FitClash := by
  have ha := h.aed
  obtain ⟨s1, s2⟩ := h.dlsa_bounds
  have hd := h.dla
  unfold Link.FitClash fitDistances
  dsimp only
  rw [if_pos ha]
  have m : min (1.908 * L.wn * L.he₀ * L.he₁) (L.dla / 2) ≤ L.dla / 2 := min_le_right _ _
  dsimp only
  generalize min (1.908 * L.wn * L.he₀ * L.he₁) (L.dla / 2) = x at *
  rw [hd] at m ⊢
  rintro (⟨c, -⟩ | c | ⟨-, c⟩)
  · linarith
  · norm_num at *; linarith
  · norm_num at *; linarith

/-- The link is within the limits. -/
theorem usable (ht0 : |L.the₀| ≤ 0.2) (ht1 : |L.the₁| ≤ 0.2) : L.Usable := by
  have hg := h.g
  have g1 := h.g1; have g2 := h.g2; have a1 := h.a1; have a2 := h.a2; have b1 := h.b1; have b2 := h.b2
  have l0 : 64400 ≤ √(2 * L.he₀ / L.gme) := by
    refine Real.le_sqrt_of_sq_le ?_
    rw [le_div_iff₀ hg]; norm_num at *; linarith
  have u0 : √(2 * L.he₀ / L.gme) ≤ 65000 := by
    rw [Real.sqrt_le_left (by norm_num), div_le_iff₀ hg]; norm_num at *; linarith
  have l1 : 17700 ≤ √(2 * L.he₁ / L.gme) := by
    refine Real.le_sqrt_of_sq_le ?_
    rw [le_div_iff₀ hg]; norm_num at *; linarith
  have u1 : √(2 * L.he₁ / L.gme) ≤ 18100 := by
    rw [Real.sqrt_le_left (by norm_num), div_le_iff₀ hg]; norm_num at *; linarith
  refine ⟨⟨by rw [h.hg0]; norm_num, ht0, ?_, ?_⟩, ⟨by rw [h.hg1]; norm_num, ht1, ?_, ?_⟩, by linarith, by linarith⟩
  · unfold smoothHorizon; rw [h.dl0]; norm_num at *; linarith
  · unfold smoothHorizon; rw [h.dl0]; norm_num at *; linarith
  · unfold smoothHorizon; rw [h.dl1]; norm_num at *; linarith
  · unfold smoothHorizon; rw [h.dl1]; norm_num at *; linarith

end DocsLink
end Itm.Spec
