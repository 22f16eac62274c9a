import Verif.Lemmas.Fresh
import Verif.Lemmas.RefineRun
import Mathlib.Analysis.Real.Pi.Bounds

/-! The smooth link of `Witness` over rolling terrain: interdecile height 90 m. Every positive distance is answered, and all but the
horizon distance are in general position. -/

namespace Itm
open Itm.Spec

noncomputable def hillIn : LrIn ℝ := { smoothIn with dh := 90 }
/-- The hilly link as a freshly prepared area dictionary. -/
noncomputable def hill : PropSt ℝ := blank 1 hillIn

theorem hill_adm : Adm hillIn := by
  constructor <;> simp only [hillIn, smoothIn, tangentIn] <;> norm_num

theorem hill_hor : horR hillIn = ⟨⟨80000, 80000⟩, 160000, 160000, -0.02⟩ := by
  rw [show horR hillIn = horR (tangentIn 80000) from rfl, tangent_hor (by norm_num)]
  norm_num

theorem hill_ground : GroundAdm hillIn := by
  have g : GroundAdm (tangentIn 80000) := tangent_ground (by norm_num) (by rw [termWa_smooth]; norm_num)
  exact ⟨g.t0, g.t1, g.path⟩

theorem hill_weight (f0 f1 : ℝ) {d : ℝ} (hd : 200000 ≤ d) :
    0.725 ≤ weightR hillIn (diffR 1 hillIn f0 f1) d ∧ weightR hillIn (diffR 1 hillIn f0 f1) d ≤ 0.728 := by
  have w1 : (diffR 1 hillIn f0 f1).wd1 = 1 := by
    show Real.sqrt (1.0 + (400 * 400 - 400 * 400) / _) = 1
    rw [sub_self, zero_div, add_zero]; norm_num
  have x1 : (diffR 1 hillIn f0 f1).xd1 = 0 := by
    show (horR hillIn).dla + (horR hillIn).tha / 1.25e-7 = 0
    rw [hill_hor]; norm_num
  have hE : Real.exp (-d / 50e3) ≤ 0.0184 := by
    have h1 : Real.exp (-d / 50e3) ≤ Real.exp (-1) ^ 4 := by
      rw [← Real.exp_nat_mul]
      refine Real.exp_le_exp.2 ?_
      rw [div_le_iff₀ (by norm_num)]; norm_num; linarith
    have h3 : Real.exp (-1) ≤ 0.3678794413 := (lt_trans Real.exp_neg_one_lt_d9 (by norm_num)).le
    have h4 := pow_le_pow_left₀ (Real.exp_pos (-1)).le h3 4
    refine h1.trans (h4.trans (by norm_num))
  have hE0 := Real.exp_pos (-d / 50e3)
  unfold weightR
  rw [w1, x1]
  have e : dhAt hillIn.dh d * hillIn.wn = (1 - 0.8 * Real.exp (-d / 50e3)) * 90 := by
    unfold dhAt
    show (1.0 - 0.8 * Real.exp (-d / 50e3)) * 90 * 1 = _
    norm_num
  rw [e]
  generalize Real.exp (-d / 50e3) = E at *
  have lo : (9.4 : ℝ) ^ 2 ≤ (1 - 0.8 * E) * 90 := by norm_num at *; linarith
  have hi : (1 - 0.8 * E) * 90 ≤ (9.5 : ℝ) ^ 2 := by norm_num at *; linarith
  rw [min_eq_left (hi.trans (by norm_num)), zero_div, add_zero, one_mul]
  have s1 := Real.le_sqrt_of_sq_le lo
  have s2 := Real.sqrt_le_sqrt hi
  rw [Real.sqrt_sq (by norm_num)] at s2
  generalize Real.sqrt ((1 - 0.8 * E) * 90) = s at *
  have p : (0 : ℝ) < 25.1 + s := by norm_num at *; linarith
  constructor
  · rw [le_div_iff₀ p]; norm_num at *; linarith
  · rw [div_le_iff₀ p]; norm_num at *; linarith

theorem hill_d3 : d3R hillIn (horR hillIn) = 215148 := by
  rw [show d3R hillIn (horR hillIn) = d3R (tangentIn 80000) (horR (tangentIn 80000)) from rfl, tangent_d3 (by norm_num) le_rfl]; norm_num

theorem hill_d4 : d4R hillIn (horR hillIn) = 325444 := by
  rw [show d4R hillIn (horR hillIn) = d4R (tangentIn 80000) (horR (tangentIn 80000)) from rfl, tangent_d4 (by norm_num) le_rfl]; norm_num

theorem hill_knife3 : 11 ≤ knifeR hillIn (horR hillIn) 215148 ∧ knifeR hillIn (horR hillIn) 215148 ≤ 19 := by
  have e : ∀ dl : ℝ, dl = 80000 → 11 / 2 ≤ aknfeR (0.0795775 * 1 * (215148 - 160000) * (-0.02 + 215148 * 1.25e-7) ^ 2 * dl / (215148 - 160000 + dl)) ∧
      aknfeR (0.0795775 * 1 * (215148 - 160000) * (-0.02 + 215148 * 1.25e-7) ^ 2 * dl / (215148 - 160000 + dl)) ≤ 19 / 2 := by
    intro dl h
    subst h
    have lo : (0.12 : ℝ) ≤ 0.0795775 * 1 * (215148 - 160000) * (-0.02 + 215148 * 1.25e-7) ^ 2 * 80000 / (215148 - 160000 + 80000) := by norm_num
    have hi : 0.0795775 * 1 * (215148 - 160000) * (-0.02 + 215148 * 1.25e-7) ^ 2 * 80000 / (215148 - 160000 + 80000) ≤ (0.1296 : ℝ) := by norm_num
    generalize 0.0795775 * 1 * (215148 - 160000) * (-0.02 + 215148 * 1.25e-7 : ℝ) ^ 2 * 80000 / (215148 - 160000 + 80000) = v at *
    unfold aknfeR
    have pv : 0 < v := lt_of_lt_of_le (by norm_num) lo
    rw [if_pos (lt_of_le_of_lt hi (by norm_num)), if_neg (not_le.2 pv)]
    have s := Real.sqrt_le_sqrt hi
    rw [show (0.1296 : ℝ) = 0.36 ^ 2 by norm_num, Real.sqrt_sq (by norm_num)] at s
    have s0 := Real.sqrt_nonneg v
    dsimp only
    constructor <;> (norm_num at lo hi s ⊢; linarith)
  unfold knifeR
  rw [hill_hor]
  have := e 80000 rfl
  constructor
  · exact le_trans (by norm_num) (add_le_add this.1 this.1)
  · exact le_trans (add_le_add this.2 this.2) (by norm_num)

theorem hill_knife4 : 30 ≤ knifeR hillIn (horR hillIn) 325444 ∧ knifeR hillIn (horR hillIn) 325444 ≤ 40 := by
  have e : ∀ dl : ℝ, dl = 80000 → 30 / 2 ≤ aknfeR (0.0795775 * 1 * (325444 - 160000) * (-0.02 + 325444 * 1.25e-7) ^ 2 * dl / (325444 - 160000 + dl)) ∧
      aknfeR (0.0795775 * 1 * (325444 - 160000) * (-0.02 + 325444 * 1.25e-7) ^ 2 * dl / (325444 - 160000 + dl)) ≤ 40 / 2 := by
    intro dl h
    subst h
    have lo : (1.69 : ℝ) ≤ 0.0795775 * 1 * (325444 - 160000) * (-0.02 + 325444 * 1.25e-7) ^ 2 * 80000 / (325444 - 160000 + 80000) := by norm_num
    have hi : 0.0795775 * 1 * (325444 - 160000) * (-0.02 + 325444 * 1.25e-7) ^ 2 * 80000 / (325444 - 160000 + 80000) ≤ (1.96 : ℝ) := by norm_num
    generalize 0.0795775 * 1 * (325444 - 160000) * (-0.02 + 325444 * 1.25e-7 : ℝ) ^ 2 * 80000 / (325444 - 160000 + 80000) = v at *
    unfold aknfeR
    have pv : 0 < v := lt_of_lt_of_le (by norm_num) lo
    rw [if_pos (lt_of_le_of_lt hi (by norm_num)), if_neg (not_le.2 pv)]
    have s := Real.sqrt_le_sqrt lo
    rw [show (1.69 : ℝ) = 1.3 ^ 2 by norm_num, Real.sqrt_sq (by norm_num)] at s
    have t := Real.sqrt_le_sqrt hi
    rw [show (1.96 : ℝ) = 1.4 ^ 2 by norm_num, Real.sqrt_sq (by norm_num)] at t
    dsimp only
    constructor <;> (norm_num at lo hi s t ⊢; linarith)
  unfold knifeR
  rw [hill_hor]
  have := e 80000 rfl
  constructor
  · exact le_trans (by norm_num) (add_le_add this.1 this.1)
  · exact le_trans (add_le_add this.2 this.2) (by norm_num)

/-- Height gain of either terminal. -/
theorem hill_fht {pk f : ℝ} (h : fht 484.9365 pk = .ok f) : -8.5 ≤ f ∧ f ≤ -2 := by
  unfold fht at h
  simp only [lit_eq, rexp] at h
  rw [if_neg (by norm_num), npLog_ok (by norm_num), ok_bind, if_pos (by norm_num), pure_ok, ok_inj] at h
  have hl1 := log_le_pow2 (y := 484.9365) 9 (by norm_num)
  have hl2 := log_ge_pow2 (y := 484.9365) 9 (by norm_num)
  obtain ⟨k1, k2⟩ := log2_bounds
  have e1 : Real.exp (-0.005 * 484.9365) ≤ 0.1354 := by
    have h1 : Real.exp (-0.005 * 484.9365) ≤ Real.exp (-1) ^ 2 := by
      rw [← Real.exp_nat_mul]
      exact Real.exp_le_exp.2 (by norm_num)
    have h3 : Real.exp (-1) ≤ 0.3678794413 := (lt_trans Real.exp_neg_one_lt_d9 (by norm_num)).le
    exact h1.trans ((pow_le_pow_left₀ (Real.exp_pos (-1)).le h3 2).trans (by norm_num))
  have e2 : 0.0497 ≤ Real.exp (-0.005 * 484.9365) := by
    have h1 : Real.exp (-1) ^ 3 ≤ Real.exp (-0.005 * 484.9365) := by
      rw [← Real.exp_nat_mul]
      exact Real.exp_le_exp.2 (by norm_num)
    have h3 : 0.36787944 ≤ Real.exp (-1) := (lt_trans (by norm_num) Real.exp_neg_one_gt_d9).le
    exact le_trans (le_trans (by norm_num) (pow_le_pow_left₀ (by norm_num) h3 3)) h1
  rw [← h, show (117.0 : ℝ) = 117 by norm_num]
  generalize Real.log 484.9365 = L at *
  generalize Real.exp (-0.005 * 484.9365) = E at *
  have hF : (0.05751 * 484.9365 - 4.343 * L) ≤ 1.1 ∧ 0.9 ≤ (0.05751 * 484.9365 - 4.343 * L) := by
    constructor <;> (norm_num at *; linarith)
  have hG : (17.372 * L - 117) ≤ -9.4 ∧ -9.7 ≤ (17.372 * L - 117) := by
    constructor <;> (norm_num at *; linarith)
  have w1 : 0.0134 * 484.9365 * E ≤ 0.88 := by norm_num at *; linarith
  have w2 : 0.32 ≤ 0.0134 * 484.9365 * E := by norm_num at *; linarith
  generalize 0.0134 * 484.9365 * E = w at *
  generalize 0.05751 * 484.9365 - 4.343 * L = F at *
  generalize 17.372 * L - 117 = G at *
  clear h hl1 hl2 k1 k2 e1 e2
  norm_num at *
  constructor <;> nlinarith

/-- Rounded-earth attenuations at the two distances of the diffraction line. -/
theorem hill_rounded {f0 f1 : ℝ} (h0 : -8.5 ≤ f0 ∧ f0 ≤ -2) (h1 : -8.5 ≤ f1 ∧ f1 ≤ -2) :
    27 ≤ roundedR hillIn (horR hillIn) (diffR 1 hillIn f0 f1) 215148 ∧ roundedR hillIn (horR hillIn) (diffR 1 hillIn f0 f1) 215148 ≤ 41.5 ∧
    35 ≤ roundedR hillIn (horR hillIn) (diffR 1 hillIn f0 f1) 325444 - roundedR hillIn (horR hillIn) (diffR 1 hillIn f0 f1) 215148 ∧
    roundedR hillIn (horR hillIn) (diffR 1 hillIn f0 f1) 325444 - roundedR hillIn (horR hillIn) (diffR 1 hillIn f0 f1) 215148 ≤ 38.5 := by
  have hx : (0 : ℝ) < 80000 := by norm_num
  have r : ∀ d, roundedR hillIn (horR hillIn) (diffR 1 hillIn f0 f1) d =
      roundedR (tangentIn 80000) (horR (tangentIn 80000)) (diffR 1 (tangentIn 80000) f0 f1) d := fun d => rfl
  have e := tangent_emd (f0 := f0) (f1 := f1) (le_refl (80000 : ℝ)) (by rw [termQ_smooth]; norm_num)
  unfold emdR at e
  rw [tangent_adiff hx, tangent_adiff hx, ← r, ← r, show d3R (tangentIn 80000) (horR (tangentIn 80000)) = 215148 from hill_d3,
    show d4R (tangentIn 80000) (horR (tangentIn 80000)) = 325444 from hill_d4, lt_div_iff₀ (by norm_num), div_lt_iff₀ (by norm_num)] at e
  have v : roundedR hillIn (horR hillIn) (diffR 1 hillIn f0 f1) 215148 = 0.05751 * 1304.16397627500 - 4.343 * Real.log 1304.16397627500 - (20 + f0 + f1) := by
    rw [r, tangent_rounded le_rfl (by norm_num), termQ_smooth]
    norm_num
  have hL1 := log_le_pow2 (y := 1304.16397627500) 10 (by norm_num)
  have hL2 := log_ge_pow2 (y := 1304.16397627500) 10 (by norm_num)
  obtain ⟨k1, k2⟩ := log2_bounds
  clear r
  generalize roundedR hillIn (horR hillIn) (diffR 1 hillIn f0 f1) 215148 = R3 at *
  generalize roundedR hillIn (horR hillIn) (diffR 1 hillIn f0 f1) 325444 = R4 at *
  generalize Real.log 1304.16397627500 = L at *
  refine ⟨?_, ?_, ?_, ?_⟩ <;> (norm_num at *; linarith)

/-- The set-up of the hilly link. -/
theorem hill_setup : ∃ s, setupC 1 hillIn = .ok s ∧ s.h = horR hillIn ∧ 2.5e-4 < s.l.emd ∧ s.l.aed < 0 ∧ 0 < s.l.aed + s.l.emd * 160000 := by
  obtain ⟨f0, f1, hf0, hf1, hs⟩ := setupC_total (mdp := 1) hill_adm hill_ground
  refine ⟨_, hs, rfl, ?_⟩
  have hz : hillIn.zgnd.abs = 4 := tangent_z (x := 80000) (by norm_num)
  have q : termQ 1 (1.0 / 4) 80000 400 = 484.9365 := by rw [show (1.0 / 4 : ℝ) = 0.25 by norm_num, termQ_smooth]
  rw [hz] at hf0 hf1
  change fht (termQ 1 (1.0 / 4) 80000 400) _ = _ at hf0
  change fht (termQ 1 (1.0 / 4) 80000 400) _ = _ at hf1
  rw [q] at hf0 hf1
  obtain ⟨r1, r2, r3, r4⟩ := hill_rounded (hill_fht hf0) (hill_fht hf1)
  show 2.5e-4 < emdR hillIn (horR hillIn) (diffR 1 hillIn f0 f1) ∧
    adiffR hillIn (horR hillIn) (diffR 1 hillIn f0 f1) (d3R hillIn (horR hillIn)) - emdR hillIn (horR hillIn) (diffR 1 hillIn f0 f1) * d3R hillIn (horR hillIn) < 0 ∧
    0 < adiffR hillIn (horR hillIn) (diffR 1 hillIn f0 f1) (d3R hillIn (horR hillIn)) - emdR hillIn (horR hillIn) (diffR 1 hillIn f0 f1) * d3R hillIn (horR hillIn) +
      emdR hillIn (horR hillIn) (diffR 1 hillIn f0 f1) * 160000
  have hafo : 0 ≤ (diffR 1 hillIn f0 f1).afo ∧ (diffR 1 hillIn f0 f1).afo ≤ 15 := afoR_range hill_adm (horR_dlsa_pos hill_adm).le
  unfold emdR
  rw [hill_d3, hill_d4]
  unfold adiffR
  have k3 := hill_knife3
  have k4 := hill_knife4
  have w3 := hill_weight f0 f1 (d := 215148) (by norm_num)
  have w4 := hill_weight f0 f1 (d := 325444) (by norm_num)
  generalize knifeR hillIn (horR hillIn) 215148 = K3 at *
  generalize knifeR hillIn (horR hillIn) 325444 = K4 at *
  generalize weightR hillIn (diffR 1 hillIn f0 f1) 215148 = W3 at *
  generalize weightR hillIn (diffR 1 hillIn f0 f1) 325444 = W4 at *
  generalize roundedR hillIn (horR hillIn) (diffR 1 hillIn f0 f1) 215148 = R3 at *
  generalize roundedR hillIn (horR hillIn) (diffR 1 hillIn f0 f1) 325444 = R4 at *
  generalize (diffR 1 hillIn f0 f1).afo = af at *
  clear hf0 hf1 hs q hz
  have e : R4 * W4 + (1.0 - W4) * K4 + af - (R3 * W3 + (1.0 - W3) * K3 + af) =
      W4 * (R4 - R3) + (W4 - W3) * (R3 - K3) + (1 - W4) * (K4 - K3) := by norm_num; ring
  rw [e]
  have p : (0 : ℝ) < 325444 - 215148 := by norm_num
  have p4 : 0 < W4 := lt_of_lt_of_le (by norm_num) w4.1
  have p3 : 0 < W3 := lt_of_lt_of_le (by norm_num) w3.1
  have a1 : 0.725 * 35 ≤ W4 * (R4 - R3) := mul_le_mul w4.1 r3 (by norm_num) p4.le
  have b1 : W4 * (R4 - R3) ≤ 0.728 * 38.5 := mul_le_mul w4.2 r4 (le_trans (by norm_num) r3) (by norm_num)
  have a2 : |(W4 - W3) * (R3 - K3)| ≤ 0.003 * 40 := by
    rw [abs_mul]
    refine mul_le_mul (abs_le.2 ?_) (abs_le.2 ?_) (abs_nonneg _) (by norm_num)
    · constructor <;> (norm_num at *; linarith)
    · constructor <;> (norm_num at *; linarith)
  have q4 : 0.272 ≤ 1 - W4 ∧ 1 - W4 ≤ 0.275 := by constructor <;> (norm_num at *; linarith)
  have q3 : 0.272 ≤ 1 - W3 ∧ 1 - W3 ≤ 0.275 := by constructor <;> (norm_num at *; linarith)
  have a3 : 0.272 * 11 ≤ (1 - W4) * (K4 - K3) := mul_le_mul q4.1 (by linarith) (by norm_num) (le_trans (by norm_num) q4.1)
  have b3 : (1 - W4) * (K4 - K3) ≤ 0.275 * 29 := mul_le_mul q4.2 (by linarith) (by linarith) (by norm_num)
  have a4 := abs_le.1 a2
  have c1 : 0.725 * 27 ≤ R3 * W3 := by rw [mul_comm R3]; exact mul_le_mul w3.1 r1 (by norm_num) p3.le
  have c2 : R3 * W3 ≤ 0.728 * 41.5 := by rw [mul_comm R3]; exact mul_le_mul w3.2 r2 (by linarith) (by norm_num)
  have c3 : 0.272 * 11 ≤ (1 - W3) * K3 := mul_le_mul q3.1 k3.1 (by norm_num) (le_trans (by norm_num) q3.1)
  have c4 : (1 - W3) * K3 ≤ 0.275 * 19 := mul_le_mul q3.2 k3.2 (by linarith) (by norm_num)
  rw [show (1.0 : ℝ) = 1 by norm_num]
  generalize W4 * (R4 - R3) = T1 at *
  generalize (W4 - W3) * (R3 - K3) = T2 at *
  generalize (1 - W4) * (K4 - K3) = T3 at *
  generalize R3 * W3 = T4 at *
  generalize (1 - W3) * K3 = T5 at *
  clear * - a1 b1 a3 b3 a4 c1 c2 c3 c4 hafo p
  refine ⟨?_, ?_, ?_⟩
  · rw [lt_div_iff₀ p]; norm_num at *; linarith
  · norm_num at *; linarith
  · norm_num at *; linarith

theorem hill_far (D : ℝ) (hD : 160000 ≤ D) : ∃ q, lrprop D hill = .ok q := by
  obtain ⟨s, hs, hh, he, _, _⟩ := hill_setup
  obtain ⟨x, hx, _⟩ := tangent_scat (x := 80000) (a1 := 0.0) (.inl rfl) (lt_trans (by norm_num) he)
  have hx' : scatC hillIn (horR hillIn) s.l 0.0 = .ok x := hx
  have e := arefOf_setup (p := hill) (by decide) hs D
  rw [show inp hill = hillIn from rfl, hh, runC_far (freshCInv _ _ _ _) (by rw [hill_hor]; exact hD), hx'] at e
  obtain ⟨q, hq, _⟩ := arefOf_ok e; exact ⟨q, hq⟩

theorem hill_gain {d : ℝ} (hd : 360000 ≤ d) : 0 ≤ (linkOf hill).scatterGain d ∧ (linkOf hill).scatterGain d ≤ 3 := by
  have hth : (0.025 : ℝ) ≤ (blank 0 hillIn).the.x0 + (blank 0 hillIn).the.x1 + d * (blank 0 hillIn).gme := by
    show (0.025 : ℝ) ≤ -(80000 * 1.25e-7) + -0.01 + d * 1.25e-7
    norm_num; linarith
  have er : (linkOf hill).rr = 1 := by
    unfold Link.rr
    rw [show (linkOf hill).he₀ = 400 from rfl, show (linkOf hill).he₁ = 400 from rfl]
    norm_num
  have ea : (linkOf hill).ad = 0 := by
    show |(80000 : ℝ) - 80000| = 0
    norm_num
  have eq : (-1 : ℝ) ≤ 0.031 - 0.00232 * hill.ens + 5.67e-6 * hill.ens ^ 2 := by
    show (-1 : ℝ) ≤ 0.031 - 0.00232 * 301 + 5.67e-6 * 301 ^ 2
    norm_num
  obtain ⟨h, hh, h0, hb⟩ := ascatH0_ok (d := d) (p := blank 0 hillIn)
    (s := ⟨(linkOf hill).ad, (linkOf hill).rr, 0.031 - 0.00232 * hill.ens + 5.67e-6 * hill.ens ^ 2, -15⟩) hill_adm.wn hill_adm.he0 hill_adm.he1
    (lt_of_lt_of_le (by norm_num) hth) (by rw [ea]) (by show (linkOf hill).ad < d; rw [ea]; linarith) (by show 0 < (linkOf hill).rr; rw [er]; norm_num) eq
  have ev := Props.ascatH0_spec (p := hill) (s := ⟨(linkOf hill).ad, (linkOf hill).rr, 0.031 - 0.00232 * hill.ens + 5.67e-6 * hill.ens ^ 2, -15⟩)
    rfl rfl rfl hh
  rw [if_neg (by norm_num)] at ev
  rw [← ev]
  refine ⟨h0, hb.trans (max_le (h0Bound_small (y := 800 * ((blank 0 hillIn).the.x0 + (blank 0 hillIn).the.x1 + d * (blank 0 hillIn).gme)) ?_ ?_ ?_) (by norm_num))⟩
  · norm_num at hth ⊢; linarith
  · show 2.0 * 1 * _ * 400 = _
    norm_num; ring
  · show 2.0 * 1 * _ * 400 = _
    norm_num; ring

theorem hill_eta {d : ℝ} (hd : 360000 ≤ d) : 1 < (linkOf hill).eta d := by
  have ea : (linkOf hill).ad = 0 := by
    show |(80000 : ℝ) - 80000| = 0
    norm_num
  have hz : 2250 ≤ (linkOf hill).z0 d := by
    unfold Link.z0 Link.scatterAngle
    rw [ea]
    show (2250 : ℝ) ≤ (d - 0) * (d + 0) * (-(80000 * 1.25e-7) + -0.01 + d * 1.25e-7) / (4 * d)
    rw [sub_zero, add_zero, le_div_iff₀ (by linarith)]
    have : (0.025 : ℝ) ≤ -(80000 * 1.25e-7) + -0.01 + d * 1.25e-7 := by norm_num; linarith
    have h2 : d * d * 0.025 ≤ d * d * (-(80000 * 1.25e-7) + -0.01 + d * 1.25e-7) := mul_le_mul_of_nonneg_left this (by positivity)
    norm_num at h2 ⊢
    nlinarith
  unfold Link.eta
  have hE : Real.exp (-(min 1.7 ((linkOf hill).z0 d / 8000)) ^ 6) ≤ 1 := by
    refine Real.exp_le_one_iff.2 ?_
    rw [neg_nonpos]
    positivity
  have hE0 := Real.exp_pos (-(min 1.7 ((linkOf hill).z0 d / 8000)) ^ 6)
  rw [show (linkOf hill).ens = 301 from rfl]
  generalize Real.exp (-(min 1.7 ((linkOf hill).z0 d / 8000)) ^ 6) = E at *
  have b : (0.84 : ℝ) ≤ 1 + (0.031 - 0.00232 * 301 + 5.67e-6 * 301 ^ 2) * E := by norm_num; linarith
  have a : (1.28 : ℝ) ≤ (linkOf hill).z0 d / 1755.6 := by rw [le_div_iff₀ (by norm_num)]; norm_num; linarith
  have := mul_le_mul a b (by norm_num) (le_trans (by norm_num) a)
  exact lt_of_lt_of_le (by norm_num) this

theorem hill_md : 2.5e-4 < (linkOf hill).md ∧ (linkOf hill).diffLine 0 < 0 ∧ 0 < (linkOf hill).diffLine 160000 ∧ (linkOf hill).dlsa = 160000 ∧
    ∀ d, (linkOf hill).diffLine d = (linkOf hill).diffLine 0 + (linkOf hill).md * d := by
  obtain ⟨s, hs, hh, h1, h2, h3⟩ := hill_setup
  obtain ⟨_, ⟨e1, _⟩, _, e2, _, e3, _⟩ := Props.line_spec (p := hill) hs
  have e0 := e3 0
  rw [mul_zero, add_zero] at e0
  rw [← e2, ← e0, ← e3 160000, ← e1, hh, hill_hor]
  exact ⟨h1, h2, h3, rfl, fun d => (e3 d).symm⟩

/-- The distances of the line-of-sight fit on the hilly link. -/
theorem hill_fit : (linkOf hill).fit0 = 305280 ∧ 40000 ≤ (linkOf hill).fit1 ∧ (linkOf hill).fit1 < 160000 := by
  obtain ⟨h1, h2, h3, _, h4⟩ := hill_md
  have edla : (linkOf hill).dla = 160000 := by
    show (80000 : ℝ) + 80000 = 160000
    norm_num
  have e : fitDistances (linkOf hill).wn (linkOf hill).he₀ (linkOf hill).he₁ (linkOf hill).dla ((linkOf hill).diffLine 0) (linkOf hill).md =
      (305280, max (-(linkOf hill).diffLine 0 / (linkOf hill).md) 40000) := by
    unfold fitDistances
    dsimp only
    rw [if_neg (not_le.2 h2), edla, show (linkOf hill).wn = 1 from rfl, show (linkOf hill).he₀ = 400 from rfl, show (linkOf hill).he₁ = 400 from rfl]
    norm_num
  unfold Link.fit0 Link.fit1
  rw [e]
  have pm : 0 < (linkOf hill).md := lt_trans (by norm_num) h1
  refine ⟨rfl, le_max_right _ _, max_lt ?_ (by norm_num)⟩
  rw [h4] at h3
  rw [div_lt_iff₀ pm]
  linarith

theorem hill_sigma {d : ℝ} (hd : 40000 ≤ d) : 0 ≤ terrainSigma (irregularity 90 d) ∧ terrainSigma (irregularity 90 d) ≤ 20 := by
  have hE : Real.exp (-d / 50000) ≤ 1 / 1.8 := by
    have h1 : Real.exp (-d / 50000) ≤ Real.exp (-0.8) := Real.exp_le_exp.2 (by rw [div_le_iff₀ (by norm_num)]; norm_num; linarith)
    have h2 := Real.add_one_le_exp (0.8 : ℝ)
    rw [Real.exp_neg] at h1
    refine h1.trans ?_
    rw [inv_eq_one_div]
    exact one_div_le_one_div_of_le (by norm_num) (by norm_num at h2 ⊢; linarith)
  have hE0 := Real.exp_pos (-d / 50000)
  unfold irregularity
  generalize Real.exp (-d / 50000) = E at *
  have lo : 49 ≤ (1 - 0.8 * E) * 90 := by norm_num at *; linarith
  have hi : (1 - 0.8 * E) * 90 ≤ 90 := by norm_num at *; linarith
  generalize (1 - 0.8 * E) * 90 = q at *
  unfold terrainSigma
  have r : (1.3 : ℝ) ≤ (q / 16) ^ (1 / 4 : ℝ) := by
    have : ((1.3 : ℝ) ^ (4 : ℝ)) ^ (1 / 4 : ℝ) ≤ (q / 16) ^ (1 / 4 : ℝ) := by
      refine Real.rpow_le_rpow (by positivity) ?_ (by norm_num)
      rw [le_div_iff₀ (by norm_num)]; norm_num; linarith
    rwa [← Real.rpow_mul (by norm_num), show (4 * (1 / 4) : ℝ) = 1 by norm_num, Real.rpow_one] at this
  have x : Real.exp (-(q / 16) ^ (1 / 4 : ℝ)) ≤ 0.284 := by
    have h1 : Real.exp (-(q / 16) ^ (1 / 4 : ℝ)) ≤ Real.exp (-1.3) := Real.exp_le_exp.2 (by linarith)
    have h2 : Real.exp (-1.3) = Real.exp (-1) * (Real.exp 0.3)⁻¹ := by rw [← Real.exp_neg, ← Real.exp_add]; norm_num
    have h3 : Real.exp (-1) ≤ 0.3678794413 := (lt_trans Real.exp_neg_one_lt_d9 (by norm_num)).le
    have h4 := Real.add_one_le_exp (0.3 : ℝ)
    have h5 : (Real.exp 0.3)⁻¹ ≤ (1.3)⁻¹ := inv_anti₀ (by norm_num) (by norm_num at h4 ⊢; linarith)
    rw [h2] at h1
    refine h1.trans ((mul_le_mul h3 h5 (by positivity) (by norm_num)).trans (by norm_num))
  have x0 := Real.exp_pos (-(q / 16) ^ (1 / 4 : ℝ))
  generalize Real.exp (-(q / 16) ^ (1 / 4 : ℝ)) = X at *
  constructor
  · positivity
  · have : 0.78 * q * X ≤ 0.78 * 90 * 0.284 := mul_le_mul (by linarith) x x0.le (by norm_num)
    exact this.trans (by norm_num)

theorem hill_grazing {d : ℝ} (hd : 40000 ≤ d) : 0 < grazing 400 400 d ∧ grazing 400 400 d ≤ 0.02 := by
  unfold grazing
  have h : 40000 ≤ Real.sqrt (d ^ 2 + (400 + 400) ^ 2) := Real.le_sqrt_of_sq_le (by nlinarith)
  constructor
  · exact div_pos (by norm_num) (by linarith)
  · rw [div_le_iff₀ (by linarith)]; norm_num at h ⊢; linarith

/-- The ground reflects more than half the field, in opposite phase. -/
theorem hill_reflection {d : ℝ} (hd : 40000 ≤ d) : ∃ r : ℝ, (linkOf hill).ground d = r ∧ r < 0 ∧ 1 / 4 < r ^ 2 := by
  obtain ⟨g0, g1⟩ := hill_grazing hd
  obtain ⟨s0, s1⟩ := hill_sigma hd
  have e : (linkOf hill).ground d = ((((grazing 400 400 d - 4) / (grazing 400 400 d + 4)) *
      Real.exp (-min 10 (1 * terrainSigma (irregularity 90 d) * grazing 400 400 d)) : ℝ) : ℂ) := by
    show ((grazing 400 400 d : ℂ) - ((4 : ℝ) : ℂ)) / ((grazing 400 400 d : ℂ) + ((4 : ℝ) : ℂ)) * _ = _
    push_cast
    rfl
  refine ⟨_, e, ?_, ?_⟩
  · exact mul_neg_of_neg_of_pos (div_neg_of_neg_of_pos (by norm_num at g1; linarith) (by linarith)) (Real.exp_pos _)
  · have hm : 1 * terrainSigma (irregularity 90 d) * grazing 400 400 d ≤ 20 * 0.02 := by
      rw [one_mul]; exact mul_le_mul s1 g1 g0.le (by norm_num)
    have hx := Real.add_one_le_exp (-min 10 (1 * terrainSigma (irregularity 90 d) * grazing 400 400 d))
    have hm' := (min_le_right 10 (1 * terrainSigma (irregularity 90 d) * grazing 400 400 d)).trans hm
    generalize Real.exp (-min 10 (1 * terrainSigma (irregularity 90 d) * grazing 400 400 d)) = X at *
    have hX : 0.6 ≤ X := by
      generalize min 10 (1 * terrainSigma (irregularity 90 d) * grazing 400 400 d) = m at *
      norm_num at hx hm' ⊢; linarith
    have hr : 0.98 ≤ (4 - grazing 400 400 d) / (grazing 400 400 d + 4) := by
      rw [le_div_iff₀ (by linarith)]; norm_num at *; linarith
    have := mul_le_mul hr hX (by norm_num) (le_trans (by norm_num) hr)
    have h2 := pow_le_pow_left₀ (by norm_num) this 2
    have e2 : ((grazing 400 400 d - 4) / (grazing 400 400 d + 4) * X) ^ 2 = ((4 - grazing 400 400 d) / (grazing 400 400 d + 4) * X) ^ 2 := by ring
    rw [e2]
    exact lt_of_lt_of_le (by norm_num) h2

theorem hill_ray {d : ℝ} (hd : 40000 ≤ d) (hu : d < 160000) : (linkOf hill).RayClear d ∧ twoRay (linkOf hill).wn (linkOf hill).dh (linkOf hill).he₀ (linkOf hill).he₁ d (linkOf hill).z ≤ 0 := by
  obtain ⟨r, e, rn, rq⟩ := hill_reflection hd
  obtain ⟨g0, g1⟩ := hill_grazing hd
  have p : (0 : ℝ) < d := by linarith
  have n : ‖(linkOf hill).ground d‖ ^ 2 = r ^ 2 := by rw [e, Complex.norm_real, Real.norm_eq_abs, sq_abs]
  have ph : 2 < 2 * (1 : ℝ) * 400 * 400 / d := by rw [lt_div_iff₀ p]; norm_num; linarith
  have hq : grazing 400 400 d < r ^ 2 := by norm_num at g1; linarith
  refine ⟨⟨?_, ?_, ?_⟩, ?_⟩
  · rw [n]; exact rq.ne'
  · rw [n]; exact hq.ne'
  · show 2 * (1 : ℝ) * 400 * 400 / d ≠ 1.57
    exact ne_of_gt (lt_trans (by norm_num) ph)
  · have eff : effReflection (grazing 400 400 d) ((linkOf hill).ground d) = (r : ℂ) := by
      unfold effReflection
      rw [n, if_neg (by push Not; exact ⟨rq.le, hq.le⟩), e]
    show -4.343 * Real.log (‖Complex.exp (-(rayPhase 1 400 400 d : ℂ) * Complex.I) + effReflection (grazing 400 400 d) ((linkOf hill).ground d)‖ ^ 2) ≤ 0
    rw [eff]
    have hφ : rayPhase 1 400 400 d = 3.14 - 2.4649 / (2 * 1 * 400 * 400 / d) := by
      unfold rayPhase
      rw [if_pos (lt_trans (by norm_num) ph)]
    have h1 : 0 < 2.4649 / (2 * 1 * 400 * 400 / d) := div_pos (by norm_num) (by linarith)
    have h2 : 2.4649 / (2 * 1 * 400 * 400 / d) < 1.25 := by rw [div_lt_iff₀ (by linarith)]; norm_num at ph ⊢; linarith
    have hc : Real.cos (rayPhase 1 400 400 d) ≤ 0 := by
      rw [hφ]
      have := Real.pi_gt_d2
      have := Real.pi_lt_d2
      refine Real.cos_nonpos_of_pi_div_two_le_of_le ?_ ?_ <;> (norm_num at *; linarith)
    have nn : ‖Complex.exp (-(rayPhase 1 400 400 d : ℂ) * Complex.I) + (r : ℂ)‖ ^ 2 = 1 + 2 * r * Real.cos (rayPhase 1 400 400 d) + r ^ 2 := by
      rw [← Complex.ofReal_neg, Complex.exp_mul_I, ← Complex.ofReal_cos, ← Complex.ofReal_sin, Complex.sq_norm, Complex.normSq_apply]
      simp only [Complex.add_re, Complex.add_im, Complex.ofReal_re, Complex.ofReal_im, Complex.mul_re, Complex.mul_im, Complex.I_re, Complex.I_im, Real.cos_neg,
        Real.sin_neg]
      have := Real.sin_sq_add_cos_sq (rayPhase 1 400 400 d)
      ring_nf
      linarith
    rw [nn]
    have : 0 ≤ r * Real.cos (rayPhase 1 400 400 d) := mul_nonneg_of_nonpos_of_nonpos rn.le hc
    have := Real.log_nonneg (x := 1 + 2 * r * Real.cos (rayPhase 1 400 400 d) + r ^ 2) (by nlinarith [sq_nonneg r])
    norm_num; linarith

theorem hill_sight : (linkOf hill).SightClear := by
  obtain ⟨h1, h2, h3, h5, h4⟩ := hill_md
  obtain ⟨f0, f1, f2⟩ := hill_fit
  obtain ⟨rc, tr⟩ := hill_ray f1 f2
  have lt : ¬ (linkOf hill).fit0 < (linkOf hill).fit1 := by rw [f0]; push Not; linarith
  refine ⟨h2.ne, ?_, rc, ?_, fun h => absurd h lt⟩
  · rw [f0]; exact ne_of_gt (by linarith)
  · rw [h5]
    refine ne_of_gt ?_
    unfold Link.twoRayMix
    have w0 : 0 < (linkOf hill).wis ∧ (linkOf hill).wis ≤ 1 := by
      unfold Link.wis
      rw [h5, show (linkOf hill).wn = 1 from rfl, show (linkOf hill).dh = 90 from rfl, max_eq_right (by norm_num)]
      norm_num
    have lt1 : (linkOf hill).diffLine (linkOf hill).fit1 < (linkOf hill).diffLine 160000 := by
      rw [h4, h4 160000]
      have := mul_lt_mul_of_pos_left f2 (lt_trans (by norm_num) h1)
      linarith
    generalize twoRay (linkOf hill).wn (linkOf hill).dh (linkOf hill).he₀ (linkOf hill).he₁ (linkOf hill).fit1 (linkOf hill).z = T at *
    generalize (linkOf hill).diffLine (linkOf hill).fit1 = A at *
    generalize (linkOf hill).diffLine 160000 = B at *
    generalize (linkOf hill).wis = w at *
    clear * - tr h3 w0 lt1
    obtain ⟨w0, w1⟩ := w0
    by_cases hA : A ≤ 0
    · nlinarith
    · nlinarith

theorem hill_near (D : ℝ) (h0 : 0 < D) (hD : D < 160000) : ∃ q, lrprop D hill = .ok q := by
  obtain ⟨s, hs, hh, he, ha, hb⟩ := hill_setup
  have he0 : 0 < s.l.emd := lt_trans (by norm_num) he
  have hsa : (horR hillIn).dlsa = 160000 := by rw [hill_hor]
  have hE : losDR hillIn (horR hillIn) s.l = (305280, max (-s.l.aed / s.l.emd) 40000) := by
    unfold losDR
    rw [if_neg (not_le.2 ha), hill_hor]
    simp only [hillIn, smoothIn, tangentIn]
    norm_num
  have hq : -s.l.aed / s.l.emd < 160000 := by rw [div_lt_iff₀ he0]; linarith
  have h12 : (losDR hillIn (horR hillIn) s.l).2 < (horR hillIn).dlsa := by
    rw [hE, hsa]; exact max_lt hq (by norm_num)
  have hnlt : ¬ (losDR hillIn (horR hillIn) s.l).1 < (losDR hillIn (horR hillIn) s.l).2 := by
    rw [hsa] at h12
    have : (losDR hillIn (horR hillIn) s.l).1 = 305280 := by rw [hE]
    rw [this]; linarith
  obtain ⟨k, hk⟩ := losC_ok (l := s.l) hill_adm (.inr (by simp only [hillIn, smoothIn, tangentIn]; norm_num)) (.inr he0.ne') (ne_of_gt h12)
    (fun h => absurd h hnlt)
  have e := arefOf_setup (p := hill) (by decide) hs D
  rw [show inp hill = hillIn from rfl, hh, runC_near (by rw [hsa]; exact hD) h0 rfl, hk] at e
  obtain ⟨q, hq, _⟩ := arefOf_ok e; exact ⟨q, hq⟩

/-- The hilly link is in general position off the horizon. -/
theorem hill_clear {d : ℝ} (hd : d ≠ 160000) : (linkOf hill).Clear d := by
  have edla : (linkOf hill).dla = 160000 := by
    show (80000 : ℝ) + 80000 = 160000
    norm_num
  have etha : (linkOf hill).tha = -0.02 := by
    have := congrArg Horizon.tha hill_hor
    exact this
  have edlsa : (linkOf hill).dlsa = 160000 := by
    have := congrArg Horizon.dlsa hill_hor
    exact this
  have eg : (linkOf hill).gme = 1.25e-7 := rfl
  have e3 : (linkOf hill).d3 = 215148 := by rw [← link_d3]; exact hill_d3
  have e4 : (linkOf hill).d4 = 325444 := by rw [← link_d4]; exact hill_d4
  have ez : (linkOf hill).zInv = 1 / 4 := by
    unfold Link.zInv
    rw [show (linkOf hill).z = ((4 : ℝ) : ℂ) from rfl, Complex.norm_real, Real.norm_eq_abs, abs_of_pos (by norm_num)]
  have cube : ((8000000 : ℝ)) ^ (1 / 3 : ℝ) = 200 := by
    rw [show (8000000 : ℝ) = 200 ^ (3 : ℝ) by norm_num, ← Real.rpow_mul (by norm_num)]; norm_num
  have et : terminalArg 1 (1 / 4) 80000 400 = 484.9365 := by
    unfold terminalArg roundedArg
    rw [show (80000 / (2 * 400 / 80000) * 1 : ℝ) = 8000000 by norm_num, cube]; norm_num
  have ek : terminalK 1 (1 / 4) 80000 400 = 0.00125 := by
    unfold terminalK
    rw [show (80000 ^ 2 / (2 * 400) * 1 : ℝ) = 8000000 by norm_num, cube]; norm_num
  have gc : GainClear (terminalArg 1 (1 / 4) 80000 400) (terminalK 1 (1 / 4) 80000 400) := by
    rw [et, ek]
    refine ⟨by norm_num, by norm_num, by norm_num, by norm_num, ?_⟩
    have h : Real.log 0.00125 ≤ -6 := by
      have := log_ge_pow2 (y := 800) 9 (by norm_num)
      have l := log2_bounds.1
      rw [show (0.00125 : ℝ) = (800 : ℝ)⁻¹ by norm_num, Real.log_inv]
      norm_num at *; linarith
    have h' : (6 : ℝ) ≤ -Real.log 0.00125 := by linarith
    have := pow_le_pow_left₀ (by norm_num) h' 3
    have : (484.9365 : ℝ) * 6 ^ 3 ≤ 484.9365 * (-Real.log 0.00125) ^ 3 := mul_le_mul_of_nonneg_left this (by norm_num)
    refine ne_of_gt (lt_of_lt_of_le (by norm_num) this)
  have hop : ∀ d, d = 360000 ∨ d = 560000 → (linkOf hill).HopClear d := by
    intro d hd
    have h36 : 360000 ≤ d := by rcases hd with h | h <;> rw [h]; norm_num
    refine ⟨.inl ?_, (hill_eta h36).ne', ?_, ?_, ?_⟩
    · show (0.2 : ℝ) < 2 * 1 * (-(80000 * 1.25e-7) + -0.01 + d * 1.25e-7) * 400
      norm_num; linarith
    · have := (hill_gain h36).2
      exact ne_of_lt (by linarith)
    · rw [etha, eg]; rcases hd with h | h <;> rw [h] <;> norm_num
    · rw [etha, eg]; rcases hd with h | h <;> rw [h] <;> norm_num
  have e5 : (linkOf hill).d5 = 360000 := by unfold Link.d5; rw [edla]; norm_num
  have e6 : (linkOf hill).d6 = 560000 := by unfold Link.d6; rw [edla]; norm_num
  have kn : ∀ d, (linkOf hill).knifeArg 80000 d = 0.0795775 * 1 * (d - 160000) * (-0.02 + d * 1.25e-7) ^ 2 * 80000 / (d - 160000 + 80000) := by
    intro d
    unfold Link.knifeArg
    rw [edla, etha, eg, show (linkOf hill).wn = 1 from rfl]
  refine ⟨⟨?_, ?_, ?_, ?_, ?_, ?_⟩, ?_, ?_, fun _ => ⟨?_, ?_, ?_, ?_, ?_⟩⟩
  · rw [ez]; exact gc
  · rw [ez]; exact gc
  · rw [e3, show (linkOf hill).dl₀ = 80000 from rfl, kn]; norm_num
  · rw [e3, show (linkOf hill).dl₁ = 80000 from rfl, kn]; norm_num
  · rw [e4, show (linkOf hill).dl₀ = 80000 from rfl, kn]; norm_num
  · rw [e4, show (linkOf hill).dl₁ = 80000 from rfl, kn]; norm_num
  · rw [edlsa]; exact hd
  · exact fun _ => hill_sight
  · rw [e5]; exact hop _ (.inl rfl)
  · rw [e6]; exact hop _ (.inr rfl)
  · exact .inr rfl
  · rw [e5]
    intro h
    have := (hill_gain (d := 360000) le_rfl).2
    linarith
  · unfold Link.a5 Link.gain5
    have g5 := (hill_gain (d := 360000) le_rfl).2
    have g6 := (hill_gain (d := 560000) (by norm_num)).2
    rw [e5, e6, if_neg (by rintro (h | h) <;> linarith)]
    unfold Link.scatterAtt scatterCurve
    rw [etha, eg, show (linkOf hill).wn = 1 from rfl, show (linkOf hill).ens = 301 from rfl]
    dsimp only
    rw [if_pos (by norm_num)]
    have l1 := Real.log_nonneg (x := (-0.02 + 360000 * 1.25e-7) * 360000) (by norm_num)
    have l2 := Real.log_nonpos (x := 47.7 * 1 * (-0.02 + 360000 * 1.25e-7) ^ 4) (by norm_num) (by norm_num)
    refine ne_of_lt ?_
    generalize Real.log ((-0.02 + 360000 * 1.25e-7) * 360000) = A at *
    generalize Real.log (47.7 * 1 * (-0.02 + 360000 * 1.25e-7) ^ 4) = B at *
    rw [sub_self, mul_zero, zero_mul]
    norm_num at *
    linarith

/-- Every positive distance is answered on the hilly link. -/
theorem hill_total (D : ℝ) (h0 : 0 < D) : ∃ q, lrprop D hill = .ok q := by
  rcases lt_or_ge D 160000 with h | h
  · exact hill_near D h0 h
  · exact hill_far D h

end Itm
