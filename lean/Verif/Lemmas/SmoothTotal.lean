import Verif.Lemmas.Witness
import Verif.Lemmas.Fresh

/-! Smooth-earth links: every stage of `lrprop` beyond the horizon succeeds. -/

namespace Itm

/-- A link over smooth earth: no terrain irregularity, both horizons where the smooth earth puts them, at least
95 MHz, curvature and refractivity inside the hard limits of `lrprop`, raised antennas, horizons at most 300 km in sum. -/
structure SmoothEarth (i : LrIn ℝ) : Prop where
  hg0 : 0 < i.hg.x0
  hg1 : 0 < i.hg.x1
  he0 : 0 < i.he.x0
  he1 : 0 < i.he.x1
  dh : i.dh = 0
  wn : 2 ≤ i.wn
  glo : 75e-9 ≤ i.gme
  ghi : i.gme ≤ 250e-9
  dl0 : i.dl.x0 = Real.sqrt (2 * i.he.x0 / i.gme)
  dl1 : i.dl.x1 = Real.sqrt (2 * i.he.x1 / i.gme)
  the0 : i.the.x0 = -(i.gme * i.dl.x0)
  the1 : i.the.x1 = -(i.gme * i.dl.x1)
  nlo : 250 ≤ i.ens
  nhi : i.ens ≤ 400
  zre : 0 < i.zgnd.re
  zabs : 0.1 ≤ i.zgnd.abs
  r0 : 5e-5 ≤ i.wn * i.gme * i.he.x0
  r1 : 5e-5 ≤ i.wn * i.gme * i.he.x1
  dla : i.dl.x0 + i.dl.x1 ≤ 300e3

namespace SmoothEarth
variable {i : LrIn ℝ} (h : SmoothEarth i)
include h

theorem gpos : 0 < i.gme := lt_of_lt_of_le (by norm_num) h.glo
theorem wpos : 0 < i.wn := by linarith [h.wn]

theorem adm : Adm i := by
  have hg := h.gpos; have h0 := h.he0; have h1 := h.he1
  refine ⟨h.hg0, h.hg1, h0, h1, ?_, ?_, h.wpos, hg, h.dh.ge, h.zre⟩
  · rw [h.dl0]; positivity
  · rw [h.dl1]; positivity

theorem hor : horR i = ⟨⟨i.dl.x0, i.dl.x1⟩, i.dl.x0 + i.dl.x1, i.dl.x0 + i.dl.x1, -(i.dl.x0 + i.dl.x1) * i.gme⟩ := by
  unfold horR
  rw [← h.dl0, ← h.dl1, h.the0, h.the1]
  rw [max_eq_right (by linarith)]

theorem sq0 : i.dl.x0 ^ 2 = 2 * i.he.x0 / i.gme := by
  have hg := h.gpos; have h0 := h.he0
  rw [h.dl0, Real.sq_sqrt (by positivity)]
theorem sq1 : i.dl.x1 ^ 2 = 2 * i.he.x1 / i.gme := by
  have hg := h.gpos; have h0 := h.he1
  rw [h.dl1, Real.sq_sqrt (by positivity)]

theorem a0 : termA i.dl.x0 i.he.x0 = 1 / i.gme := by
  unfold termA
  have hg := h.gpos.ne'; have h0 := h.he0.ne'
  rw [h.sq0]; field_simp; norm_num
theorem a1 : termA i.dl.x1 i.he.x1 = 1 / i.gme := by
  unfold termA
  have hg := h.gpos.ne'; have h0 := h.he1.ne'
  rw [h.sq1]; field_simp; norm_num
theorem pa {d : ℝ} (hd : i.dl.x0 + i.dl.x1 < d) : pathA i (horR i) d = 1 / i.gme := by
  unfold pathA
  rw [h.hor]
  have hg := h.gpos.ne'
  have e : -(i.dl.x0 + i.dl.x1) * i.gme + d * i.gme = (d - (i.dl.x0 + i.dl.x1)) * i.gme := by ring
  have : d - (i.dl.x0 + i.dl.x1) ≠ 0 := by linarith
  simp only
  rw [e]; field_simp

omit h in
/-- The common `wa`. -/
noncomputable def K (i : LrIn ℝ) : ℝ := (1 / i.gme * i.wn) ^ (third : ℝ)

theorem K_cube : K i ^ 3 = i.wn / i.gme := by
  have hg := h.gpos; have hw := h.wpos
  unfold K
  rw [third_real, ← Real.rpow_natCast, ← Real.rpow_mul (by positivity)]
  norm_num; field_simp

theorem K_pos : 0 < K i := by
  have hg := h.gpos; have hw := h.wpos
  exact rpow_third_pos (by positivity)

theorem K_ge : 200 ≤ K i := by
  have hg := h.gpos; have hw := h.wn; have h1 := h.ghi
  by_contra c
  push Not at c
  have : K i ^ 3 < 200 ^ 3 := pow_lt_pow_left₀ c h.K_pos.le (by norm_num)
  rw [h.K_cube, div_lt_iff₀ hg] at this
  norm_num at this h1; linarith

theorem Kg_cube : (K i * i.gme) ^ 3 = i.wn * i.gme ^ 2 := by
  rw [mul_pow, h.K_cube]; have hg := h.gpos.ne'; field_simp

theorem Kg_ge : 2.2e-5 ≤ K i * i.gme := by
  have hg := h.gpos; have hw := h.wn; have h1 := h.glo
  by_contra c
  push Not at c
  have : (K i * i.gme) ^ 3 < 2.2e-5 ^ 3 := pow_lt_pow_left₀ c (mul_pos h.K_pos hg).le (by norm_num)
  rw [h.Kg_cube] at this
  have h2 : (75e-9 : ℝ) ^ 2 ≤ i.gme ^ 2 := pow_le_pow_left₀ (by norm_num) h1 2
  norm_num at this h2; nlinarith

theorem xae : xaeR i = (K i * i.gme)⁻¹ := by
  unfold xaeR
  rw [← h.Kg_cube, rpow_cube_neg (mul_pos h.K_pos h.gpos).le]

theorem wa0 : termWa i.wn i.dl.x0 i.he.x0 = K i := by unfold termWa; rw [h.a0]; rfl
theorem wa1 : termWa i.wn i.dl.x1 i.he.x1 = K i := by unfold termWa; rw [h.a1]; rfl
theorem pwa {d : ℝ} (hd : i.dl.x0 + i.dl.x1 < d) : pathWa i (horR i) d = K i := by unfold pathWa; rw [h.pa hd]; rfl

theorem ground : GroundAdm i := by
  have hK := h.K_ge; have hz := h.zabs
  have hp : 1 < 1.607 * i.zgnd.abs * K i := by norm_num at *; nlinarith
  refine ⟨?_, ?_, ?_⟩
  · rw [h.wa0]; exact hp.le
  · rw [h.wa1]; exact hp.le
  · rw [h.pwa]
    · exact hp
    · rw [h.hor]
      have := xaeR_pos h.adm
      simp only
      norm_num; exact this

omit h in
/-- The slope of the rounded-earth argument, times `xae`. -/
noncomputable def b (i : LrIn ℝ) : ℝ := (1.607 - 1.0 / i.zgnd.abs / K i) * 151.0

theorem b_ge : 235 ≤ b i := by
  have hK := h.K_ge; have hz := h.zabs
  have hz0 : 0 < i.zgnd.abs := cxabs_pos h.zre
  have hp : 1.0 / i.zgnd.abs / K i ≤ 0.05 := by
    rw [div_le_iff₀ h.K_pos, div_le_iff₀ hz0]; norm_num at *; nlinarith
  unfold b
  norm_num at *; linarith

theorem q_eq {mdp : Int} {f0 f1 d : ℝ} (hd : i.dl.x0 + i.dl.x1 < d) :
    pathQ i (horR i) (diffR mdp i f0 f1) d = b i * (K i * i.gme) * d := by
  have hg := h.gpos.ne'; have hK := h.K_pos.ne'
  have e0 : termQ i.wn (1.0 / i.zgnd.abs) i.dl.x0 i.he.x0 = b i * (K i * i.gme) * i.dl.x0 := by
    unfold termQ termPk b
    rw [h.wa0, h.a0]; field_simp
  have e1 : termQ i.wn (1.0 / i.zgnd.abs) i.dl.x1 i.he.x1 = b i * (K i * i.gme) * i.dl.x1 := by
    unfold termQ termPk b
    rw [h.wa1, h.a1]; field_simp
  unfold pathQ
  rw [h.pwa hd]
  simp only [diffR, e0, e1]
  rw [h.hor]
  simp only
  rw [show (1.607 - 1.0 / i.zgnd.abs / K i) * 151.0 = b i from rfl]
  norm_num; ring

theorem adiff_eq {mdp : Int} {f0 f1 d : ℝ} : adiffR i (horR i) (diffR mdp i f0 f1) d =
    roundedR i (horR i) (diffR mdp i f0 f1) d := by
  have hw : weightR i (diffR mdp i f0 f1) d = 1 := by
    unfold weightR dhAt
    rw [h.dh, mul_zero, zero_mul, min_eq_left (by norm_num), mul_zero, Real.sqrt_zero]; norm_num
  have ha : (diffR mdp i f0 f1).afo = 0 := by
    simp only [diffR, afoR, sigmaH, dhAt, h.dh, mul_zero, zero_mul, add_zero]
    norm_num
  unfold adiffR
  rw [hw, ha]; norm_num

theorem emd_ge {mdp : Int} {f0 f1 : ℝ} : 2.4e-4 < emdR i (horR i) (diffR mdp i f0 f1) := by
  have hb := h.b_ge
  have hG := h.Kg_ge
  have hG0 : 0 < K i * i.gme := mul_pos h.K_pos h.gpos
  have hxa : xaeR i * (K i * i.gme) = 1 := by rw [h.xae]; exact inv_mul_cancel₀ hG0.ne'
  have hx0 := xaeR_pos h.adm
  have hd0 := h.adm.dl0; have hd1 := h.adm.dl1
  have d3 : d3R i (horR i) = 1.3787 * xaeR i + (i.dl.x0 + i.dl.x1) := by
    unfold d3R
    rw [h.hor]
    exact max_eq_right (by norm_num; linarith)
  have d4 : d4R i (horR i) = 1.3787 * xaeR i + (i.dl.x0 + i.dl.x1) + 2.7574 * xaeR i := by
    unfold d4R; rw [d3]
  have l3 : i.dl.x0 + i.dl.x1 < 1.3787 * xaeR i + (i.dl.x0 + i.dl.x1) := by norm_num; linarith
  have l4 : i.dl.x0 + i.dl.x1 < 1.3787 * xaeR i + (i.dl.x0 + i.dl.x1) + 2.7574 * xaeR i := by norm_num; linarith
  unfold emdR
  rw [h.adiff_eq, h.adiff_eq, d3, d4]
  unfold roundedR
  rw [h.q_eq l3, h.q_eq l4]
  have e3 : b i * (K i * i.gme) * (1.3787 * xaeR i + (i.dl.x0 + i.dl.x1)) =
      1.3787 * b i + b i * (K i * i.gme) * (i.dl.x0 + i.dl.x1) := by
    calc _ = 1.3787 * b i * (xaeR i * (K i * i.gme)) + b i * (K i * i.gme) * (i.dl.x0 + i.dl.x1) := by ring
      _ = _ := by rw [hxa, mul_one]
  have e4 : b i * (K i * i.gme) * (1.3787 * xaeR i + (i.dl.x0 + i.dl.x1) + 2.7574 * xaeR i) =
      4.1361 * b i + b i * (K i * i.gme) * (i.dl.x0 + i.dl.x1) := by
    calc _ = 4.1361 * b i * (xaeR i * (K i * i.gme)) + b i * (K i * i.gme) * (i.dl.x0 + i.dl.x1) := by ring
      _ = _ := by rw [hxa, mul_one]
  rw [e3, e4]
  have hX : 0 ≤ b i * (K i * i.gme) * (i.dl.x0 + i.dl.x1) := by
    have : 0 ≤ b i := by linarith
    positivity
  generalize b i * (K i * i.gme) * (i.dl.x0 + i.dl.x1) = X at *
  have p3 : 0 < 1.3787 * b i + X := by norm_num; linarith
  have p4 : 0 < 4.1361 * b i + X := by norm_num; linarith
  have hlog : Real.log (4.1361 * b i + X) - Real.log (1.3787 * b i + X) ≤ 1.4 := by
    rw [← Real.log_div p4.ne' p3.ne']
    have h4 : (4.1361 * b i + X) / (1.3787 * b i + X) ≤ 4 := by rw [div_le_iff₀ p3]; norm_num; linarith
    have hp : 0 < (4.1361 * b i + X) / (1.3787 * b i + X) := div_pos p4 p3
    refine (Real.log_le_log hp h4).trans ?_
    rw [show (4:ℝ) = 2 ^ 2 by norm_num, Real.log_pow]
    have := log2_bounds.2
    norm_num at *; linarith
  generalize Real.log (4.1361 * b i + X) = L4 at *
  generalize Real.log (1.3787 * b i + X) = L3 at *
  rw [show 1.3787 * xaeR i + (i.dl.x0 + i.dl.x1) + 2.7574 * xaeR i - (1.3787 * xaeR i + (i.dl.x0 + i.dl.x1)) = 2.7574 * xaeR i by ring]
  rw [lt_div_iff₀ (by positivity)]
  -- xae is at most 1/2.2e-5
  have hxU : 2.2e-5 * xaeR i ≤ 1 := by rw [← hxa, mul_comm]; exact mul_le_mul_of_nonneg_left hG hx0.le
  norm_num at *; linarith

theorem h0_le {r : ℝ × ℝ × ℝ} (ha : 20 ≤ r.2.1) (hb : 20 ≤ r.2.2) : h0Bound r ≤ 3 := by
  clear h
  have hr : ∀ {y : ℝ}, 20 ≤ y → rowR 4 ((1.0 / y) ^ 2) ≤ 1.5 := by
    intro y hy
    have hy0 : 0 < y := by linarith
    have hinv : 1 / y ≤ 1 / 20 := one_div_le_one_div_of_le (by norm_num) hy
    have hip : 0 < 1 / y := by positivity
    unfold rowR
    simp only [rowA, rowB]
    have e1 : (1.0 : ℝ) = 1 := by norm_num
    rw [e1]
    have h2 : (1 / y) ^ 2 ≤ 1 / 400 := by nlinarith
    have h20 : 0 ≤ (1 / y) ^ 2 := sq_nonneg _
    generalize (1 / y) ^ 2 = u at *
    have := Real.log_le_sub_one_of_pos (x := (705.0 * u + 105.0) * u + 1) (by positivity)
    have : (705.0 * u + 105.0) * u ≤ 0.268 := by norm_num; nlinarith
    norm_num at *; linarith
  have hl : ∀ {y : ℝ}, 20 ≤ y → 0 < 1 + 1.4142 / y ∧ Real.log (1 + 1.4142 / y) ≤ 0.071 := by
    intro y hy
    have hy0 : 0 < y := by linarith
    have hp : 0 < 1 + 1.4142 / y := by positivity
    refine ⟨hp, ?_⟩
    have := Real.log_le_sub_one_of_pos hp
    have h2 : 1.4142 / y ≤ 0.071 := by rw [div_le_iff₀ hy0]; norm_num at *; linarith
    linarith
  unfold h0Bound
  refine max_le ?_ ?_
  · have := hr ha; have := hr hb; norm_num at *; linarith
  · obtain ⟨p1, l1⟩ := hl ha
    obtain ⟨p2, l2⟩ := hl hb
    rw [Real.log_pow, Real.log_mul p1.ne' p2.ne']
    generalize Real.log (1 + 1.4142 / r.2.1) = A at *
    generalize Real.log (1 + 1.4142 / r.2.2) = B at *
    norm_num at *; linarith

/-- The scatter coefficients exist, and the scatter slope is below the diffraction slope. -/
theorem scat {l : DiffLine ℝ} {a1 : ℝ} (hl : 2.4e-4 < l.emd) :
    ∃ r, scatC i (horR i) l a1 = .ok r ∧ r.2.2.ems ≤ l.emd := by
  have a := h.adm
  have hg := h.gpos; have hw := h.wpos
  have k5 : i.the.x0 + i.the.x1 + ((horR i).dla + 200e3) * i.gme = 200e3 * i.gme := by
    rw [h.hor, h.the0, h.the1]; ring
  have k6 : i.the.x0 + i.the.x1 + ((horR i).dla + 200e3 + 200e3) * i.gme = 400e3 * i.gme := by
    rw [h.hor, h.the0, h.the1]; norm_num; ring
  obtain ⟨s, h6, h5, h60, h50, hU, hU5, hS⟩ := scatC_ok (l := l) (a1 := a1) a (by rw [k5]; positivity)
  have hr : 20 ≤ (ascatR ((horR i).dla + 200e3 + 200e3) (blank 0 i)).2.1 ∧
      20 ≤ (ascatR ((horR i).dla + 200e3 + 200e3) (blank 0 i)).2.2 := by
    have e : ascatR ((horR i).dla + 200e3 + 200e3) (blank 0 i) = (400e3 * i.gme, 2.0 * i.wn * (400e3 * i.gme) * i.he.x0,
        2.0 * i.wn * (400e3 * i.gme) * i.he.x1) := by
      unfold ascatR
      simp only [blank, lit_eq, k6]
    rw [e]
    have := h.r0; have := h.r1
    simp only
    constructor <;> (norm_num at *; linarith)
  have hU' : h6 ≤ 3 := hU.trans (max_le (h.h0_le hr.1 hr.2) (by norm_num))
  -- the two attenuations
  have hdiff : ascatFinalR i.wn i.gme i.ens (horR i).tha ((horR i).dla + 200e3 + 200e3) h6 -
      ascatFinalR i.wn i.gme i.ens (horR i).tha ((horR i).dla + 200e3) h5 < 42 := by
    have e6 : (horR i).tha + ((horR i).dla + 200e3 + 200e3) * i.gme = 400e3 * i.gme := by rw [h.hor]; norm_num; ring
    have e5 : (horR i).tha + ((horR i).dla + 200e3) * i.gme = 200e3 * i.gme := by rw [h.hor]; ring
    have eD : (horR i).dla = i.dl.x0 + i.dl.x1 := rfl
    have hD0 : 0 < (horR i).dla := horR_dla_pos a
    have hD1 : (horR i).dla ≤ 300e3 := h.dla
    unfold ascatFinalR
    rw [e6, e5]
    clear e6 e5 eD hU hU5 hS hr k5 k6
    generalize (horR i).dla = D at *
    have glo := h.glo; have ghi := h.ghi
    have td6lo : 12000 ≤ 400e3 * i.gme * (D + 200e3 + 200e3) := by norm_num at *; nlinarith
    have td6hi : 400e3 * i.gme * (D + 200e3 + 200e3) ≤ 70000 := by norm_num at *; nlinarith
    have td5lo : 3000 ≤ 200e3 * i.gme * (D + 200e3) := by norm_num at *; nlinarith
    have td5hi : 200e3 * i.gme * (D + 200e3) ≤ 25000 := by norm_num at *; nlinarith
    have hlog : Real.log (47.7 * i.wn * (400e3 * i.gme) ^ 4) = Real.log (47.7 * i.wn * (200e3 * i.gme) ^ 4) + 4 * Real.log 2 := by
      rw [show (47.7 * i.wn * (400e3 * i.gme) ^ 4 : ℝ) = (47.7 * i.wn * (200e3 * i.gme) ^ 4) * 2 ^ 4 by norm_num; ring,
        Real.log_mul (by positivity) (by norm_num), Real.log_pow]
      norm_num
    rw [hlog]
    have x6 : Real.exp (-(400e3 * i.gme) * (D + 200e3 + 200e3) / 40e3) ≤ 1 ∧ 0 < Real.exp (-(400e3 * i.gme) * (D + 200e3 + 200e3) / 40e3) := by
      refine ⟨Real.exp_le_one_iff.2 ?_, Real.exp_pos _⟩
      rw [neg_mul, neg_div]
      refine neg_nonpos.2 (div_nonneg ?_ (by norm_num)); linarith
    have x5 : Real.exp (-(200e3 * i.gme) * (D + 200e3) / 40e3) ≤ 1 ∧ 0 < Real.exp (-(200e3 * i.gme) * (D + 200e3) / 40e3) := by
      refine ⟨Real.exp_le_one_iff.2 ?_, Real.exp_pos _⟩
      rw [neg_mul, neg_div]
      refine neg_nonpos.2 (div_nonneg ?_ (by norm_num)); linarith
    have nlo := h.nlo; have nhi := h.nhi
    generalize Real.exp (-(400e3 * i.gme) * (D + 200e3 + 200e3) / 40e3) = E6 at *
    generalize Real.exp (-(200e3 * i.gme) * (D + 200e3) / 40e3) = E5 at *
    have hE : 0.1 * (i.ens - 301.0) * E5 - 0.1 * (i.ens - 301.0) * E6 ≤ 9.9 := by
      have hab : -1 ≤ E5 - E6 ∧ E5 - E6 ≤ 1 := ⟨by linarith [x6.1, x5.2], by linarith [x5.1, x6.2]⟩
      have hn : -51 ≤ i.ens - 301.0 ∧ i.ens - 301.0 ≤ 99 := by constructor <;> (norm_num; linarith)
      generalize i.ens - 301.0 = n at hn
      have h1 : n * (E5 - E6) ≤ 99 := by nlinarith [hn.1, hn.2, hab.1, hab.2]
      norm_num; linarith
    generalize 0.1 * (i.ens - 301.0) * E5 = T5 at *
    generalize 0.1 * (i.ens - 301.0) * E6 = T6 at *
    generalize 400e3 * i.gme * (D + 200e3 + 200e3) = t6 at *
    generalize 200e3 * i.gme * (D + 200e3) = t5 at *
    have l2 := log2_bounds
    have A6 : ahdR t6 ≤ 109.4 := by
      unfold ahdR
      rw [if_neg (by norm_num; linarith), if_pos (by norm_num; linarith)]
      have hm : Real.log 12000 ≤ Real.log t6 := Real.log_le_log (by norm_num) td6lo
      have := log_ge_pow2 (y := 12000) 13 (by norm_num)
      generalize Real.log t6 = L at *
      generalize Real.log 12000 = L' at *
      norm_num at *; linarith
    have A5 : 94 ≤ ahdR t5 := by
      unfold ahdR
      by_cases c : t5 ≤ 10e3
      · rw [if_pos c]
        have hm : Real.log t5 ≤ Real.log 10000 := Real.log_le_log (by linarith) (by norm_num at c; exact c)
        have := log_le_pow2 (y := 10000) 13 (by norm_num)
        generalize Real.log t5 = L at *
        generalize Real.log 10000 = L' at *
        norm_num at *; linarith
      · rw [if_neg c, if_pos (by norm_num; linarith)]
        push Not at c
        have hm : Real.log t5 ≤ Real.log 25000 := Real.log_le_log (by linarith) td5hi
        have := log_le_pow2 (y := 25000) 14 (by norm_num)
        generalize Real.log t5 = L at *
        generalize Real.log 25000 = L' at *
        norm_num at *; linarith
    generalize ahdR t6 = B6 at *
    generalize ahdR t5 = B5 at *
    generalize Real.log (47.7 * i.wn * (200e3 * i.gme) ^ 4) = L at *
    generalize Real.log 2 = M at *
    norm_num at *; linarith
  generalize ascatFinalR i.wn i.gme i.ens (horR i).tha ((horR i).dla + 200e3 + 200e3) h6 = A6 at *
  generalize ascatFinalR i.wn i.gme i.ens (horR i).tha ((horR i).dla + 200e3) h5 = A5 at *
  have hne : (A6 - A5) / 200e3 < l.emd := by
    rw [div_lt_iff₀ (by norm_num)]; norm_num at *; linarith
  obtain ⟨c, hc⟩ := scatCoef_ok (h := horR i) (l := l) (d5 := (horR i).dla + 200e3) (a5 := A5) (a6 := A6) a.wn hne.ne'
  refine ⟨_, by rw [hS, hc, ok_bind, pure_ok], ?_⟩
  simp only
  unfold scatCoef at hc
  simp only [lit_eq] at hc
  split_ifs at hc
  · obtain ⟨_, _, hc⟩ := bind_eq_ok.1 hc
    obtain ⟨_, _, hc⟩ := bind_eq_ok.1 hc
    rw [pure_ok, ok_inj] at hc
    rw [← hc]; exact hne.le
  · rw [pure_ok, ok_inj] at hc
    rw [← hc]

/-- The set-up and both coefficient sets. -/
theorem setup (mdp : Int) : ∃ s x, setupC mdp i = .ok s ∧ s.h = horR i ∧ scatC i s.h s.l 0.0 = .ok x ∧ 2.4e-4 < s.l.emd ∧
    x.2.2.ems ≤ s.l.emd := by
  obtain ⟨f0, f1, _, _, hs⟩ := setupC_total (mdp := mdp) h.adm h.ground
  obtain ⟨r, hr, he⟩ := h.scat (l := lineR i (horR i) (diffR mdp i f0 f1)) (a1 := 0.0) h.emd_ge
  exact ⟨_, r, hs, rfl, hr, h.emd_ge, he⟩

end SmoothEarth

end Itm
