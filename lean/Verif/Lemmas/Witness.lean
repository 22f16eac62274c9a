import Verif.Lemmas.LosFit
import Verif.Lemmas.ScatReal
import Mathlib.Analysis.SpecialFunctions.Log.Deriv
import Mathlib.Analysis.Complex.ExponentialBounds

/-! Two concrete links over smooth earth on which every stage of `lrprop` is evaluated: antennas at 400 m, 47.7 MHz,
curvature 1.25e-7, ground impedance 4. `smoothIn` has the smooth-earth horizons; in `skewIn` the first horizon is at
270 km, more than three times its smooth-earth distance of 80 km. -/

namespace Itm

theorem rpow_cube {x : ℝ} (h : 0 ≤ x) : (x ^ 3) ^ (third : ℝ) = x := by
  rw [third_real, ← Real.rpow_natCast, ← Real.rpow_mul h]; norm_num

theorem rpow_cube_neg {x : ℝ} (h : 0 ≤ x) : (x ^ 3) ^ (-(third : ℝ)) = x⁻¹ := by
  rw [third_real, ← Real.rpow_natCast, ← Real.rpow_mul h]; norm_num [Real.rpow_neg_one]

/-- The common shape of the two links: second horizon at 80 km, first one free, horizon angles on the smooth-earth tangent. -/
noncomputable def tangentIn (dl0 : ℝ) : LrIn ℝ :=
  { hg := ⟨400, 400⟩, he := ⟨400, 400⟩, dl := ⟨dl0, 80000⟩, the := ⟨-(dl0 * 1.25e-7), -0.01⟩, wn := 1, dh := 0, ens := 301,
    gme := 1.25e-7, zgnd := ⟨4, 0⟩ }

noncomputable def smoothIn : LrIn ℝ := tangentIn 80000
noncomputable def skewIn : LrIn ℝ := tangentIn 270000

section
variable {x : ℝ} (hx : 0 < x)
include hx

theorem tangent_adm : Adm (tangentIn x) := by
  constructor <;> simp only [tangentIn] <;> norm_num
  exact hx

theorem tangent_hor : horR (tangentIn x) = ⟨⟨80000, 80000⟩, 160000, x + 80000, -((x + 80000) * 1.25e-7)⟩ := by
  have e : Real.sqrt (2 * 400 / 1.25e-7) = 80000 := by
    rw [show (2 * 400 / 1.25e-7 : ℝ) = 80000 ^ 2 by norm_num]; exact Real.sqrt_sq (by norm_num)
  unfold horR
  simp only [tangentIn]
  rw [e]
  have : -(x * 1.25e-7) + -0.01 = -(x + 80000) * 1.25e-7 := by norm_num; ring
  rw [this, max_self]
  norm_num; ring

theorem tangent_z : (tangentIn x).zgnd.abs = 4 := by
  rw [cxabs_real]; simp only [tangentIn]
  rw [show (4 * 4 + 0 * 0 : ℝ) = 4 ^ 2 by norm_num]; exact Real.sqrt_sq (by norm_num)

theorem tangent_xae : xaeR (tangentIn x) = 40000 := by
  unfold xaeR
  simp only [tangentIn]
  rw [show (1 * 1.25e-7 ^ 2 : ℝ) = (1 / 40000) ^ 3 by norm_num, rpow_cube_neg (by norm_num)]; norm_num

theorem tangent_d3 (h : 80000 ≤ x) : d3R (tangentIn x) (horR (tangentIn x)) = x + 135148 := by
  unfold d3R
  rw [tangent_xae hx, tangent_hor hx]
  simp only
  rw [max_eq_right (by norm_num; linarith)]; norm_num; ring

theorem tangent_d4 (h : 80000 ≤ x) : d4R (tangentIn x) (horR (tangentIn x)) = x + 245444 := by
  unfold d4R
  rw [tangent_xae hx, tangent_d3 hx h]; norm_num; ring

theorem tangent_pathWa {d : ℝ} (h : x + 80000 < d) : pathWa (tangentIn x) (horR (tangentIn x)) d = 200 := by
  unfold pathWa pathA
  rw [tangent_hor hx]
  simp only [tangentIn]
  have e : (d - (x + 80000)) / (-((x + 80000) * 1.25e-7) + d * 1.25e-7) * 1 = 200 ^ 3 := by
    rw [mul_one, div_eq_iff (by norm_num; linarith)]; norm_num; ring
  rw [e, rpow_cube (by norm_num)]

theorem tangent_t1 : termWa (tangentIn x).wn (tangentIn x).dl.x1 (tangentIn x).he.x1 = 200 := by
  unfold termWa termA
  simp only [tangentIn]
  rw [show (0.5 * 80000 ^ 2 / 400 * 1 : ℝ) = 200 ^ 3 by norm_num, rpow_cube (by norm_num)]

theorem tangent_ground (h : 1 ≤ 1.607 * 4 * termWa 1 x 400) : GroundAdm (tangentIn x) := by
  constructor
  · rw [tangent_z hx]; exact h
  · rw [tangent_z hx, tangent_t1 hx]; norm_num
  · rw [tangent_z hx, tangent_xae hx, tangent_pathWa hx (by rw [tangent_hor hx]; simp only; norm_num)]
    norm_num

/-- The rounded-earth argument is linear in distance. -/
theorem tangent_q {f0 f1 d : ℝ} (h : x + 80000 < d) :
    pathQ (tangentIn x) (horR (tangentIn x)) (diffR 1 (tangentIn x) f0 f1) d =
      0.00606170625 * (d - (x + 80000)) + (termQ 1 0.25 x 400 + 484.9365) := by
  have ht : termQ 1 0.25 80000 400 = 484.9365 := by
    have h1 : termA 80000 400 = 8000000 := by unfold termA; norm_num
    have h2 : termWa 1 80000 400 = 200 := tangent_t1 hx
    unfold termQ termPk
    rw [h1, h2]; norm_num
  unfold pathQ
  rw [tangent_pathWa hx h]
  simp only [diffR, tangent_z hx, tangent_hor hx]
  simp only [tangentIn]
  rw [show (1.0 / 4 : ℝ) = 0.25 by norm_num, ht]
  norm_num; ring

theorem tangent_adiff {f0 f1 d : ℝ} : adiffR (tangentIn x) (horR (tangentIn x)) (diffR 1 (tangentIn x) f0 f1) d =
    roundedR (tangentIn x) (horR (tangentIn x)) (diffR 1 (tangentIn x) f0 f1) d := by
  have hw : weightR (tangentIn x) (diffR 1 (tangentIn x) f0 f1) d = 1 := by
    unfold weightR dhAt
    simp only [tangentIn, mul_zero, zero_mul]
    rw [min_eq_left (by norm_num), mul_zero, Real.sqrt_zero]; norm_num
  have ha : (diffR 1 (tangentIn x) f0 f1).afo = 0 := by
    simp only [diffR, afoR, sigmaH, dhAt]
    simp only [tangentIn, mul_zero, zero_mul, add_zero]
    norm_num
  unfold adiffR
  rw [hw, ha]; norm_num

end

theorem log2_bounds : 0.693 < Real.log 2 ∧ Real.log 2 < 0.6932 :=
  ⟨lt_trans (by norm_num) Real.log_two_gt_d9, lt_trans Real.log_two_lt_d9 (by norm_num)⟩

/-- Upper bound of the logarithm through a power of two. -/
theorem log_le_pow2 {y : ℝ} (n : ℕ) (hy : 0 < y) : Real.log y ≤ n * Real.log 2 + (y / 2 ^ n - 1) := by
  have h := Real.log_le_sub_one_of_pos (x := y / 2 ^ n) (by positivity)
  rw [Real.log_div hy.ne' (by positivity), Real.log_pow] at h
  linarith

theorem log_ge_pow2 {y : ℝ} (n : ℕ) (hy : 0 < y) : n * Real.log 2 + (1 - 2 ^ n / y) ≤ Real.log y := by
  have h := Real.log_le_sub_one_of_pos (x := 2 ^ n / y) (by positivity)
  rw [Real.log_div (by positivity) hy.ne', Real.log_pow] at h
  linarith

/-- The blending weight of `fht` never exceeds 0.986. -/
theorem fht_weight {x : ℝ} (hx : 0 ≤ x) : 0 ≤ 0.0134 * x * Real.exp (-0.005 * x) ∧ 0.0134 * x * Real.exp (-0.005 * x) ≤ 0.986 := by
  constructor
  · positivity
  · have h1 := Real.add_one_le_exp (0.005 * x - 1)
    have h2 : Real.exp (0.005 * x - 1) * Real.exp (-0.005 * x) = Real.exp (-1) := by
      rw [← Real.exp_add]; congr 1; ring
    have h3 : Real.exp (-1) < 0.3678794413 := lt_trans Real.exp_neg_one_lt_d9 (by norm_num)
    have h4 := mul_le_mul_of_nonneg_right h1 (Real.exp_pos (-0.005 * x)).le
    rw [h2] at h4
    generalize Real.exp (-0.005 * x) = E at *
    generalize Real.exp (-1) = F at *
    norm_num at *; nlinarith

/-- In the blending range the height gain lies between its two formulas. -/
theorem fht_mid {x pk : ℝ} (h1 : 200 ≤ x) (h2 : x < 2000) : ∃ w, 0 ≤ w ∧ w ≤ 0.986 ∧
    fht x pk = .ok ((1 - w) * (0.05751 * x - 4.343 * Real.log x) + w * (17.372 * Real.log x - 117)) := by
  refine ⟨_, (fht_weight (x := x) (by linarith)).1, (fht_weight (x := x) (by linarith)).2, ?_⟩
  unfold fht
  simp only [lit_eq, rexp]
  rw [if_neg (by norm_num; exact h1), npLog_ok (by linarith), ok_bind, if_pos (by norm_num; exact h2), pure_ok]
  norm_num


section
variable {x : ℝ} (hx : 80000 ≤ x)
include hx

theorem tangent_rounded {f0 f1 d : ℝ} (h : x + 80000 < d) :
    roundedR (tangentIn x) (horR (tangentIn x)) (diffR 1 (tangentIn x) f0 f1) d =
      0.05751 * (0.00606170625 * (d - (x + 80000)) + (termQ 1 0.25 x 400 + 484.9365)) -
        4.343 * Real.log (0.00606170625 * (d - (x + 80000)) + (termQ 1 0.25 x 400 + 484.9365)) - (20 + f0 + f1) := by
  unfold roundedR
  rw [tangent_q (by linarith) h]
  simp only [diffR]
  norm_num

/-- The diffraction slope of the tangent links. -/
theorem tangent_emd {f0 f1 : ℝ} (ht : 300 ≤ termQ 1 0.25 x 400) :
    3.2e-4 < emdR (tangentIn x) (horR (tangentIn x)) (diffR 1 (tangentIn x) f0 f1) ∧
    emdR (tangentIn x) (horR (tangentIn x)) (diffR 1 (tangentIn x) f0 f1) < 3.49e-4 := by
  have hx0 : 0 < x := by linarith
  unfold emdR
  rw [tangent_d3 hx0 hx, tangent_d4 hx0 hx, tangent_adiff hx0, tangent_adiff hx0, tangent_rounded hx (by linarith),
    tangent_rounded hx (by linarith)]
  rw [show x + 245444 - (x + 80000) = 165444 by ring, show x + 135148 - (x + 80000) = 55148 by ring,
    show x + 245444 - (x + 135148) = 110296 by ring]
  generalize termQ 1 0.25 x 400 = T at *
  have p3 : 0 < 0.00606170625 * 55148 + (T + 484.9365) := by norm_num; linarith
  have p4 : 0 < 0.00606170625 * 165444 + (T + 484.9365) := by norm_num; linarith
  have hlt : Real.log (0.00606170625 * 55148 + (T + 484.9365)) ≤ Real.log (0.00606170625 * 165444 + (T + 484.9365)) :=
    Real.log_le_log p3 (by norm_num)
  have hU : Real.log (0.00606170625 * 165444 + (T + 484.9365)) - Real.log (0.00606170625 * 55148 + (T + 484.9365)) ≤ 0.6 := by
    have := Real.log_le_sub_one_of_pos (div_pos p4 p3)
    rw [Real.log_div p4.ne' p3.ne'] at this
    refine this.trans ?_
    rw [sub_le_iff_le_add, div_le_iff₀ p3]
    norm_num; linarith
  generalize Real.log (0.00606170625 * 55148 + (T + 484.9365)) = L3 at *
  generalize Real.log (0.00606170625 * 165444 + (T + 484.9365)) = L4 at *
  constructor
  · rw [lt_div_iff₀ (by norm_num)]; norm_num at *; linarith
  · rw [div_lt_iff₀ (by norm_num)]; norm_num at *; linarith

end

/-- The frequency gain is at most 3 dB once both scatter parameters reach 20. -/
theorem h0Bound_small {r : ℝ × ℝ × ℝ} {y : ℝ} (hy : 20 ≤ y) (e1 : r.2.1 = y) (e2 : r.2.2 = y) : h0Bound r ≤ 3 := by
  have hy0 : 0 < y := by linarith
  have hinv : 1 / y ≤ 1 / 20 := one_div_le_one_div_of_le (by norm_num) hy
  have hip : 0 < 1 / y := by positivity
  unfold h0Bound
  rw [e1, e2]
  refine max_le ?_ ?_
  · unfold rowR
    simp only [rowA, rowB]
    have e1 : (1.0 : ℝ) = 1 := by norm_num
    rw [e1]
    have h2 : (1 / y) ^ 2 ≤ 1 / 400 := by nlinarith
    have h20 : 0 ≤ (1 / y) ^ 2 := sq_nonneg _
    generalize (1 / y) ^ 2 = u at *
    have := Real.log_le_sub_one_of_pos (x := (705.0 * u + 105.0) * u + 1) (by positivity)
    have : (705.0 * u + 105.0) * u ≤ 0.268 := by norm_num; nlinarith
    norm_num at *; linarith
  · have e14 : 1.4142 / y = 1.4142 * (1 / y) := by ring
    rw [e14]
    have := Real.log_le_sub_one_of_pos (x := (1 + 1.4142 * (1 / y) : ℝ)) (by positivity)
    rw [show ((1 + 1.4142 * (1 / y)) * (1 + 1.4142 * (1 / y)) : ℝ) ^ 2 = (1 + 1.4142 * (1 / y)) ^ 4 by ring, Real.log_pow]
    generalize 1 / y = u at *
    norm_num at *; linarith

/-- Difference of the two scatter attenuations is too small to match the diffraction slope. -/
theorem tangent_scat {x a1 : ℝ} (hx : x = 80000 ∨ x = 270000) {l : DiffLine ℝ} (hl : 2e-4 < l.emd) :
    ∃ r, scatC (tangentIn x) (horR (tangentIn x)) l a1 = .ok r ∧ 0 ≤ r.2.2.ems ∧ r.2.2.ems ≤ l.emd := by
  have hx0 : 0 < x := by rcases hx with h | h <;> rw [h] <;> norm_num
  have a := tangent_adm hx0
  have ehor := tangent_hor hx0
  have hth : 0 < (tangentIn x).the.x0 + (tangentIn x).the.x1 + ((horR (tangentIn x)).dla + 200e3) * (tangentIn x).gme := by
    rw [ehor]; simp only [tangentIn]; norm_num; linarith
  obtain ⟨s, h6, h5, h60, h50, hU, hU5, hS⟩ := scatC_ok (l := l) (a1 := a1) a hth
  have hr : (ascatR ((horR (tangentIn x)).dla + 200e3 + 200e3) (blank 0 (tangentIn x))).2.1 = 40 ∧
      (ascatR ((horR (tangentIn x)).dla + 200e3 + 200e3) (blank 0 (tangentIn x))).2.2 = 40 := by
    rw [ehor]
    simp only [ascatR, blank, tangentIn]
    constructor <;> (norm_num; ring)
  have hr5 : (ascatR ((horR (tangentIn x)).dla + 200e3) (blank 0 (tangentIn x))).2.1 = 20 ∧
      (ascatR ((horR (tangentIn x)).dla + 200e3) (blank 0 (tangentIn x))).2.2 = 20 := by
    rw [ehor]
    simp only [ascatR, blank, tangentIn]
    constructor <;> (norm_num; ring)
  have hU' : h6 ≤ 3 := hU.trans (max_le (h0Bound_small (by norm_num) hr.1 hr.2) (by norm_num))
  have hU5' : h5 ≤ 3 := hU5.trans (max_le (h0Bound_small (by norm_num) hr5.1 hr5.2) (max_le (by norm_num) hU'))
  have hdiff : ascatFinalR (tangentIn x).wn (tangentIn x).gme (tangentIn x).ens (horR (tangentIn x)).tha ((horR (tangentIn x)).dla + 200e3 + 200e3) h6 -
      ascatFinalR (tangentIn x).wn (tangentIn x).gme (tangentIn x).ens (horR (tangentIn x)).tha ((horR (tangentIn x)).dla + 200e3) h5 < 40 ∧ 0 <
      ascatFinalR (tangentIn x).wn (tangentIn x).gme (tangentIn x).ens (horR (tangentIn x)).tha ((horR (tangentIn x)).dla + 200e3 + 200e3) h6 -
      ascatFinalR (tangentIn x).wn (tangentIn x).gme (tangentIn x).ens (horR (tangentIn x)).tha ((horR (tangentIn x)).dla + 200e3) h5 := by
    rw [ehor]
    simp only [tangentIn]
    unfold ascatFinalR
    have e6 : -((x + 80000) * 1.25e-7) + (x + 80000 + 200e3 + 200e3) * 1.25e-7 = (0.05 : ℝ) := by norm_num; ring
    have e5 : -((x + 80000) * 1.25e-7) + (x + 80000 + 200e3) * 1.25e-7 = (0.025 : ℝ) := by norm_num; ring
    rw [e6, e5]
    have hlog : Real.log (47.7 * 1 * 0.05 ^ 4) = Real.log (47.7 * 1 * 0.025 ^ 4) + 4 * Real.log 2 := by
      rw [show (47.7 * 1 * 0.05 ^ 4 : ℝ) = (47.7 * 1 * 0.025 ^ 4) * 2 ^ 4 by norm_num, Real.log_mul (by norm_num) (by norm_num), Real.log_pow]
      norm_num
    have l2 := log2_bounds
    rw [hlog]
    rcases hx with h | h
    · subst h
      have k6 : 99 ≤ ahdR (0.05 * (80000 + 80000 + 200e3 + 200e3)) ∧ ahdR (0.05 * (80000 + 80000 + 200e3 + 200e3)) ≤ 111 := by
        unfold ahdR
        rw [if_neg (by norm_num), if_pos (by norm_num)]
        have := Real.log_nonneg (x := 0.05 * (80000 + 80000 + 200e3 + 200e3)) (by norm_num)
        have h2 := log_le_pow2 (y := 0.05 * (80000 + 80000 + 200e3 + 200e3)) 15 (by norm_num)
        generalize Real.log (0.05 * (80000 + 80000 + 200e3 + 200e3)) = L at *
        constructor <;> (norm_num at *; linarith)
      have k5 : 94 ≤ ahdR (0.025 * (80000 + 80000 + 200e3)) ∧ ahdR (0.025 * (80000 + 80000 + 200e3)) ≤ 99 := by
        unfold ahdR
        rw [if_pos (by norm_num)]
        have := log_le_pow2 (y := 0.025 * (80000 + 80000 + 200e3)) 14 (by norm_num)
        have h2 := log_ge_pow2 (y := 0.025 * (80000 + 80000 + 200e3)) 13 (by norm_num)
        generalize Real.log (0.025 * (80000 + 80000 + 200e3)) = L at *
        constructor <;> (norm_num at *; linarith)
      generalize ahdR (0.05 * (80000 + 80000 + 200e3 + 200e3)) = A6 at *
      generalize ahdR (0.025 * (80000 + 80000 + 200e3)) = A5 at *
      generalize Real.log (47.7 * 1 * 0.025 ^ 4) = L at *
      constructor <;> (norm_num at *; linarith)
    · subst h
      have k6 : 99 ≤ ahdR (0.05 * (270000 + 80000 + 200e3 + 200e3)) ∧ ahdR (0.05 * (270000 + 80000 + 200e3 + 200e3)) ≤ 113 := by
        unfold ahdR
        rw [if_neg (by norm_num), if_pos (by norm_num)]
        have := Real.log_nonneg (x := 0.05 * (270000 + 80000 + 200e3 + 200e3)) (by norm_num)
        have h2 := log_le_pow2 (y := 0.05 * (270000 + 80000 + 200e3 + 200e3)) 15 (by norm_num)
        generalize Real.log (0.05 * (270000 + 80000 + 200e3 + 200e3)) = L at *
        constructor <;> (norm_num at *; linarith)
      have k5 : 94 ≤ ahdR (0.025 * (270000 + 80000 + 200e3)) ∧ ahdR (0.025 * (270000 + 80000 + 200e3)) ≤ 99 := by
        unfold ahdR
        rw [if_neg (by norm_num), if_pos (by norm_num)]
        have := log_le_pow2 (y := 0.025 * (270000 + 80000 + 200e3)) 14 (by norm_num)
        have h2 := log_ge_pow2 (y := 0.025 * (270000 + 80000 + 200e3)) 13 (by norm_num)
        generalize Real.log (0.025 * (270000 + 80000 + 200e3)) = L at *
        constructor <;> (norm_num at *; linarith)
      generalize ahdR (0.05 * (270000 + 80000 + 200e3 + 200e3)) = A6 at *
      generalize ahdR (0.025 * (270000 + 80000 + 200e3)) = A5 at *
      generalize Real.log (47.7 * 1 * 0.025 ^ 4) = L at *
      constructor <;> (norm_num at *; linarith)
  generalize ascatFinalR (tangentIn x).wn (tangentIn x).gme (tangentIn x).ens (horR (tangentIn x)).tha ((horR (tangentIn x)).dla + 200e3 + 200e3) h6 = A6 at *
  generalize ascatFinalR (tangentIn x).wn (tangentIn x).gme (tangentIn x).ens (horR (tangentIn x)).tha ((horR (tangentIn x)).dla + 200e3) h5 = A5 at *
  have hne : (A6 - A5) / 200e3 < l.emd := by
    rw [div_lt_iff₀ (by norm_num)]; norm_num at *; linarith
  have hge : 0 ≤ (A6 - A5) / 200e3 := div_nonneg hdiff.2.le (by norm_num)
  obtain ⟨c, hc⟩ := scatCoef_ok (h := horR (tangentIn x)) (l := l) (d5 := (horR (tangentIn x)).dla + 200e3) (a5 := A5) (a6 := A6) a.wn hne.ne'
  refine ⟨_, by rw [hS, hc, ok_bind, pure_ok], ?_⟩
  simp only
  unfold scatCoef at hc
  simp only [lit_eq] at hc
  split_ifs at hc
  · obtain ⟨_, _, hc⟩ := bind_eq_ok.1 hc
    obtain ⟨_, _, hc⟩ := bind_eq_ok.1 hc
    rw [pure_ok, ok_inj] at hc
    rw [← hc]; exact ⟨hge, hne.le⟩
  · rw [pure_ok, ok_inj] at hc
    rw [← hc]; exact ⟨by norm_num at hl; simp only; linarith, le_rfl⟩


theorem termWa_smooth : termWa 1 80000 400 = 200 := by
  unfold termWa termA
  rw [show (0.5 * 80000 ^ 2 / 400 * 1 : ℝ) = 200 ^ 3 by norm_num, rpow_cube (by norm_num)]

theorem termWa_skew : termWa 1 270000 400 = 450 := by
  unfold termWa termA
  rw [show (0.5 * 270000 ^ 2 / 400 * 1 : ℝ) = 450 ^ 3 by norm_num, rpow_cube (by norm_num)]

theorem termQ_smooth : termQ 1 0.25 80000 400 = 484.9365 := by
  unfold termQ termPk termA
  rw [termWa_smooth]; norm_num

theorem termQ_skew : 323 < termQ 1 0.25 270000 400 ∧ termQ 1 0.25 270000 400 < 324 := by
  unfold termQ termPk termA
  rw [termWa_skew]; norm_num

/-- The set-up of the smooth link. -/
theorem smooth_setup : ∃ s, setupC 1 smoothIn = .ok s ∧ s.h = horR smoothIn ∧ 3.2e-4 < s.l.emd ∧ s.l.emd < 3.49e-4 ∧ s.l.aed < 0 ∧
    0 < s.l.aed + s.l.emd * 160000 := by
  have hx : (0:ℝ) < 80000 := by norm_num
  have g := tangent_ground hx (by rw [termWa_smooth]; norm_num)
  obtain ⟨f0, f1, hf0, hf1, hs⟩ := setupC_total (mdp := 1) (tangent_adm hx) g
  refine ⟨_, hs, rfl, ?_⟩
  have hemd := tangent_emd (f0 := f0) (f1 := f1) (le_refl (80000 : ℝ)) (by rw [termQ_smooth]; norm_num)
  rw [tangent_z hx] at hf0 hf1
  simp only [tangentIn] at hf0 hf1
  rw [show (1.0 / 4 : ℝ) = 0.25 by norm_num, termQ_smooth] at hf0 hf1
  obtain ⟨w, hw0, hw1, hw⟩ := fht_mid (x := 484.9365) (pk := termPk 1 0.25 80000 400) (by norm_num) (by norm_num)
  rw [hw, ok_inj] at hf0 hf1
  have hl1 := log_le_pow2 (y := 484.9365) 9 (by norm_num)
  have hl2 := log_ge_pow2 (y := 484.9365) 9 (by norm_num)
  obtain ⟨k1, k2⟩ := log2_bounds
  have hF : (0.05751 * 484.9365 - 4.343 * Real.log 484.9365) ≤ 2 ∧ -10 ≤ (0.05751 * 484.9365 - 4.343 * Real.log 484.9365) := by
    generalize Real.log 484.9365 = L at *
    constructor <;> (norm_num at *; linarith)
  have hG : (17.372 * Real.log 484.9365 - 117) ≤ 2 ∧ -10 ≤ (17.372 * Real.log 484.9365 - 117) := by
    generalize Real.log 484.9365 = L at *
    constructor <;> (norm_num at *; linarith)
  have hf : -10 ≤ f0 ∧ f0 ≤ 2 := by
    rw [← hf0]
    generalize (0.05751 * 484.9365 - 4.343 * Real.log 484.9365) = F at *
    generalize (17.372 * Real.log 484.9365 - 117) = G at *
    have : w ≤ 1 := by norm_num at hw1; linarith
    constructor <;> nlinarith
  have hf1' : f1 = f0 := by rw [← hf1, hf0]
  have ha3 : adiffR (tangentIn 80000) (horR (tangentIn 80000)) (diffR 1 (tangentIn 80000) f0 f1) (d3R (tangentIn 80000) (horR (tangentIn 80000))) =
      0.05751 * 1304.16397627500 - 4.343 * Real.log 1304.16397627500 - (20 + f0 + f0) := by
    rw [tangent_adiff hx, tangent_d3 hx le_rfl, tangent_rounded le_rfl (by norm_num), termQ_smooth, hf1']
    norm_num
  have hL1 := log_le_pow2 (y := 1304.16397627500) 10 (by norm_num)
  have hL2 := log_ge_pow2 (y := 1304.16397627500) 10 (by norm_num)
  have hA : 19.5 < 0.05751 * 1304.16397627500 - 4.343 * Real.log 1304.16397627500 - (20 + f0 + f0) ∧
      0.05751 * 1304.16397627500 - 4.343 * Real.log 1304.16397627500 - (20 + f0 + f0) < 60 := by
    generalize Real.log 1304.16397627500 = L at *
    constructor <;> (norm_num at *; linarith)
  change 3.2e-4 < emdR _ _ _ ∧ emdR _ _ _ < 3.49e-4 ∧ adiffR _ _ _ _ - emdR _ _ _ * d3R _ _ < 0 ∧
    0 < adiffR _ _ _ _ - emdR _ _ _ * d3R _ _ + emdR _ _ _ * 160000
  rw [ha3, tangent_d3 hx le_rfl]
  generalize 0.05751 * 1304.16397627500 - 4.343 * Real.log 1304.16397627500 - (20 + f0 + f0) = A at *
  generalize emdR (tangentIn 80000) (horR (tangentIn 80000)) (diffR 1 (tangentIn 80000) f0 f1) = e at *
  refine ⟨hemd.1, hemd.2, ?_, ?_⟩ <;> (norm_num at *; linarith)

theorem skew_setup : ∃ s, setupC 1 skewIn = .ok s ∧ s.h = horR skewIn ∧ 3.2e-4 < s.l.emd := by
  have hx : (0:ℝ) < 270000 := by norm_num
  have g := tangent_ground hx (by rw [termWa_skew]; norm_num)
  obtain ⟨f0, f1, hf0, hf1, hs⟩ := setupC_total (mdp := 1) (tangent_adm hx) g
  have hemd := tangent_emd (f0 := f0) (f1 := f1) (by norm_num : (80000 : ℝ) ≤ 270000) (by have := termQ_skew; linarith)
  exact ⟨_, hs, rfl, hemd.1⟩

theorem losPlain_pos {d1 d2 a1 a2 emd : ℝ} {k : ℝ × ℝ} (hd : d1 < d2) (he : 0 < emd) (h : losPlain d1 d2 a1 a2 emd = .ok k) :
    0 < k.1 ∧ k.2 = 0 := by
  unfold losPlain at h
  obtain ⟨ak1, h1, h⟩ := bind_eq_ok.1 h
  simp only [zero_lit, pyMax_real] at h h1
  have h1 := pyDiv_eq_ok.1 h1
  have h0 : 0 ≤ ak1 := by rw [h1.2]; exact div_nonneg (le_max_right _ _) (by linarith)
  by_cases hz : pyEq ak1 0
  · rw [if_pos hz, pure_ok, ok_inj] at h; rw [← h]; exact ⟨he, rfl⟩
  · rw [if_neg hz, pure_ok, ok_inj] at h; rw [← h]
    rw [pyEq_real] at hz
    exact ⟨lt_of_le_of_ne h0 (Ne.symm hz), rfl⟩

theorem losC_plain_pos {i : LrIn ℝ} {h : Horizon ℝ} {l : DiffLine ℝ} {k : LosC ℝ} (he : 0 < l.emd) (hlt : ¬ (losDR i h l).1 < (losDR i h l).2)
    (hd : (losDR i h l).2 < h.dlsa) (hk : losC i h l = .ok k) : 0 < k.ak1 ∧ k.ak2 = 0 := by
  unfold losC losCoef at hk
  dsimp only at hk
  obtain ⟨D, hD, hk⟩ := bind_eq_ok.1 hk
  rw [← losDists_inv hD] at hd hlt
  obtain ⟨a1, ha1, hk⟩ := bind_eq_ok.1 hk
  rw [if_neg hlt] at hk
  obtain ⟨y, hy, hk⟩ := bind_eq_ok.1 hk
  obtain ⟨lg, hl, hk⟩ := bind_eq_ok.1 hk
  rw [pure_ok, ok_inj] at hk
  have := losPlain_pos hd he hy
  rw [← hk]; exact this

/-- The line-of-sight coefficients of the smooth link: a rising straight line. -/
theorem smooth_los {l : DiffLine ℝ} (he : 3.2e-4 < l.emd) (ha : l.aed < 0) (h2 : 0 < l.aed + l.emd * 160000) :
    (losDR smoothIn (horR smoothIn) l).2 < (horR smoothIn).dlsa ∧
    ∃ k, losC smoothIn (horR smoothIn) l = .ok k ∧ 0 < k.ak1 ∧ k.ak2 = 0 := by
  have hx : (0:ℝ) < 80000 := by norm_num
  have he0 : 0 < l.emd := lt_trans (by norm_num) he
  have hsa : (horR smoothIn).dlsa = 160000 := by unfold smoothIn; rw [tangent_hor hx]
  have hla : (horR smoothIn).dla = 160000 := by unfold smoothIn; rw [tangent_hor hx]; norm_num
  have hD : losDR smoothIn (horR smoothIn) l = (305280, max (-l.aed / l.emd) 40000) := by
    unfold losDR
    rw [if_neg (not_le.2 ha), hla]
    simp only [smoothIn, tangentIn]
    norm_num
  have hq : -l.aed / l.emd < 160000 := by rw [div_lt_iff₀ he0]; linarith
  have h12 : (losDR smoothIn (horR smoothIn) l).2 < (horR smoothIn).dlsa := by
    rw [hD, hsa]; exact max_lt hq (by norm_num)
  have hnlt : ¬ (losDR smoothIn (horR smoothIn) l).1 < (losDR smoothIn (horR smoothIn) l).2 := by
    rw [hsa] at h12
    have : (losDR smoothIn (horR smoothIn) l).1 = 305280 := by rw [hD]
    rw [this]; linarith
  obtain ⟨k, hk⟩ := losC_ok (l := l) (tangent_adm hx) (.inr (by simp only [tangentIn]; norm_num)) (.inr he0.ne') (ne_of_gt h12)
    (fun h => absurd h hnlt)
  exact ⟨h12, k, hk, losC_plain_pos he0 hnlt h12 hk⟩

end Itm
