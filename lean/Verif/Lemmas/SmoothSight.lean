import Verif.Props.C57
import Verif.Props.C19
import Verif.Lemmas.SmoothTotal
import Mathlib.Analysis.Convex.SpecificFunctions.Basic
import Mathlib.Analysis.Convex.Jensen

/-! Smooth earth: the diffraction line is positive at the horizon. -/

namespace Itm
open Itm.Spec

theorem exp_half : 1.648 ≤ Real.exp 0.5 ∧ Real.exp 0.5 ≤ 1.649 := by
  have h : Real.exp 0.5 * Real.exp 0.5 = Real.exp 1 := by rw [← Real.exp_add]; norm_num
  have h1 := Real.exp_one_gt_d9
  have h2 := Real.exp_one_lt_d9
  have h3 := Real.exp_pos 0.5
  constructor
  · by_contra c; push Not at c; nlinarith
  · by_contra c; push Not at c; nlinarith

theorem exp_three : 20.08 ≤ Real.exp 3 ∧ Real.exp 3 ≤ 20.09 := by
  have h : Real.exp 3 = Real.exp 1 ^ 3 := by rw [← Real.exp_nat_mul]; norm_num
  have h1 := Real.exp_one_gt_d9
  have h2 := Real.exp_one_lt_d9
  rw [h]
  constructor
  · exact le_trans (by norm_num) (pow_le_pow_left₀ (by norm_num) h1.le 3)
  · exact (pow_le_pow_left₀ (Real.exp_pos _).le h2.le 3).trans (by norm_num)

theorem exp_three_half : 33.09 ≤ Real.exp 3.5 ∧ Real.exp 3.5 ≤ 33.13 := by
  have h : Real.exp 3.5 = Real.exp 3 * Real.exp 0.5 := by rw [← Real.exp_add]; norm_num
  obtain ⟨a1, a2⟩ := exp_three
  obtain ⟨b1, b2⟩ := exp_half
  rw [h]
  generalize Real.exp 3 = A at *
  generalize Real.exp 0.5 = B at *
  constructor
  · norm_num at *; nlinarith
  · norm_num at *; nlinarith

/-- `6 ln L - L` between two ends. -/
theorem log_six {a b L m : ℝ} (ha : 0 < a) (h1 : a ≤ L) (h2 : L ≤ b) (ma : m ≤ 6 * Real.log a - a) (mb : m ≤ 6 * Real.log b - b) :
    Real.exp L * Real.exp m ≤ L ^ 6 := by
  have hc : ConcaveOn ℝ (Set.Ioi 0) fun y : ℝ => 6 * Real.log y - y :=
    ((strictConcaveOn_log_Ioi.concaveOn.smul (c := (6:ℝ)) (by norm_num)).sub (convexOn_id (convex_Ioi _)))
  have hm := hc.min_le_of_mem_Icc (x := a) (y := b) (z := L) ha (lt_of_lt_of_le ha (h1.trans h2)) ⟨h1, h2⟩
  have hL : 0 < L := lt_of_lt_of_le ha h1
  have h3 : m ≤ 6 * Real.log L - L := (le_min ma mb).trans hm
  rw [← Real.exp_add, ← Real.le_log_iff_exp_le (by positivity), Real.log_pow]
  push_cast; linarith

theorem log_ge_e {y : ℝ} (hy : 0 < y) (h : Real.exp 1 ≤ 2.71829 := le_of_lt (lt_trans Real.exp_one_lt_d9 (by norm_num))) :
    2 - 2.71829 / y ≤ Real.log y := by
  have h1 := Real.log_le_sub_one_of_pos (x := Real.exp 1 / y) (by positivity)
  rw [Real.log_div (Real.exp_pos _).ne' hy.ne', Real.log_exp] at h1
  have : Real.exp 1 / y ≤ 2.71829 / y := div_le_div_of_nonneg_right h hy.le
  linarith

/-- The impedance formula of the height gain. -/
theorem gain_low {x k : ℝ} (hx : 0 < x) (hx2 : x < 200) (hk : 1e-5 ≤ k) (hk2 : k ≤ 0.05) (h3 : x * (-Real.log k) ^ 3 ≤ 5495) :
    2.5e-5 * x ^ 2 / k + 8.686 * Real.log k - 15 ≤ 0.05751 * x - 26 := by
  have hk0 : 0 < k := lt_of_lt_of_le (by norm_num) hk
  obtain ⟨L, hL⟩ : ∃ L, L = -Real.log k := ⟨_, rfl⟩
  have hinv : 1 / k = Real.exp L := by rw [hL, Real.exp_neg, Real.exp_log hk0, one_div]
  have e3 := exp_three
  have e35 := exp_three_half
  have l2 := log2_bounds
  have L1 : 2.99 ≤ L := by
    have h1 := Real.log_le_sub_one_of_pos (x := Real.exp 3 * k) (by positivity)
    rw [Real.log_mul (Real.exp_pos _).ne' hk0.ne', Real.log_exp] at h1
    have : Real.exp 3 * k ≤ 20.09 * 0.05 := mul_le_mul e3.2 hk2 hk0.le (by norm_num)
    rw [hL]; norm_num at *; linarith
  have L2 : L ≤ 11.6 := by
    have h1 : Real.log 1e-5 ≤ Real.log k := Real.log_le_log (by norm_num) hk
    have h2 : Real.log (1e-5 : ℝ) = -Real.log 100000 := by
      rw [show (1e-5 : ℝ) = (100000)⁻¹ by norm_num, Real.log_inv]
    have h3 := log_le_pow2 (y := (100000:ℝ)) 17 (by norm_num)
    rw [h2] at h1
    norm_num at *; linarith
  rw [show 2.5e-5 * x ^ 2 / k = 2.5e-5 * x ^ 2 * (1 / k) by ring, hinv]
  rw [← hL] at h3
  have hlog : Real.log k = -L := by rw [hL]; ring
  rw [hlog]
  -- x² L⁶ is bounded
  have h6 : x ^ 2 * L ^ 6 ≤ 5495 ^ 2 := by
    calc x ^ 2 * L ^ 6 = (x * L ^ 3) ^ 2 := by ring
      _ ≤ 5495 ^ 2 := pow_le_pow_left₀ (by positivity) h3 2
  have key : ∀ {m c : ℝ}, 0 < c → c ≤ Real.exp m → Real.exp L * Real.exp m ≤ L ^ 6 → x ^ 2 * Real.exp L * c ≤ 5495 ^ 2 := by
    intro m c hc h1 h2
    calc x ^ 2 * Real.exp L * c ≤ x ^ 2 * Real.exp L * Real.exp m := mul_le_mul_of_nonneg_left h1 (by positivity)
      _ = x ^ 2 * (Real.exp L * Real.exp m) := by ring
      _ ≤ x ^ 2 * L ^ 6 := mul_le_mul_of_nonneg_left h2 (by positivity)
      _ ≤ _ := h6
  have g299 : 3.5 ≤ 6 * Real.log 2.99 - 2.99 := by
    have := log_ge_e (y := 2.99) (by norm_num); norm_num at *; linarith
  have g35 : 3.8 ≤ 6 * Real.log 3.5 - 3.5 := by
    have := log_ge_pow2 (y := (3.5:ℝ)) 2 (by norm_num); norm_num at *; linarith
  have e38 : 44 ≤ Real.exp 3.8 := by
    have h1 : Real.exp 3.8 = Real.exp 3.5 * Real.exp 0.3 := by rw [← Real.exp_add]; norm_num
    have h2 := Real.quadratic_le_exp_of_nonneg (x := 0.3) (by norm_num)
    rw [h1]
    have := mul_le_mul e35.1 h2 (by norm_num) (Real.exp_pos 3.5).le
    exact le_trans (by norm_num) this
  have g6 : 3.8 ≤ 6 * Real.log 6 - 6 := by
    have := log_ge_pow2 (y := (6:ℝ)) 2 (by norm_num); norm_num at *; linarith
  have g116 : 3 ≤ 6 * Real.log 11.6 - 11.6 := by
    have h1 : Real.log 11.6 = 2 * Real.log 2 + Real.log 2.9 := by
      rw [show (11.6 : ℝ) = 2 ^ 2 * 2.9 by norm_num, Real.log_mul (by norm_num) (by norm_num), Real.log_pow]; norm_num
    have := log_ge_e (y := 2.9) (by norm_num); rw [h1]; norm_num at *; linarith
  rcases le_total L 3.5 with c | c
  · have hE : Real.exp L ≤ 33.13 := (Real.exp_le_exp.2 c).trans e35.2
    rcases le_total x 160 with cx | cx
    · have h1 : x ^ 2 * Real.exp L ≤ x ^ 2 * 33.13 := mul_le_mul_of_nonneg_left hE (by positivity)
      generalize Real.exp L = E at *
      norm_num at *; nlinarith
    · have h1 := key (by norm_num) e35.1 (log_six (m := 3.5) (by norm_num) L1 c g299 (le_trans (by norm_num) g35))
      obtain ⟨Y, hY⟩ : ∃ Y, Y = x ^ 2 * Real.exp L := ⟨_, rfl⟩
      rw [mul_assoc, ← hY]
      rw [← hY] at h1
      norm_num at *; linarith
  · obtain ⟨Y, hY⟩ : ∃ Y, Y = x ^ 2 * Real.exp L := ⟨_, rfl⟩
    rw [mul_assoc, ← hY]
    rcases le_total L 6 with c6 | c6
    · have h1 := key (by norm_num) e38 (log_six (m := 3.8) (by norm_num) c c6 g35 g6)
      rw [← hY] at h1
      norm_num at *; linarith
    · have h1 := key (by norm_num) e3.1 (log_six (m := 3) (by norm_num) c6 L2 (le_trans (by norm_num) g6) g116)
      rw [← hY] at h1
      norm_num at *; linarith

/-- The height gain against `0.05751 x`. -/
theorem gain_bound {x k : ℝ} (hx : 0 < x) (hk0 : 0 < k) (hk2 : k ≤ 0.05) :
    (x ≤ 400 → heightGain x k ≤ 0.05751 * x - 26) ∧ (400 ≤ x → heightGain x k ≤ 0.05751 * x - 4.343 * Real.log x) := by
  have l2 := log2_bounds
  have up := log_le_pow2 (y := x) 8 hx
  have near : x ≤ 400 → nearGain x ≤ 0.05751 * x - 33 := by
    intro h; unfold nearGain; norm_num at *; linarith
  have nf : nearGain x ≤ farGain x := by
    unfold nearGain farGain
    have := log_le_pow2 (y := x) 9 hx
    norm_num at *; linarith
  constructor
  · intro h
    unfold heightGain
    rw [if_neg (by linarith)]
    split_ifs with h1 h2 h3
    · dsimp only
      obtain ⟨w0, w1⟩ := fht_weight hx.le
      have hw : 0.36 ≤ 0.0134 * x * Real.exp (-0.005 * x) := by
        have h1' : Real.exp (-2) ≤ Real.exp (-0.005 * x) := Real.exp_le_exp.2 (by norm_num at *; linarith)
        have h2' : 0.1353 ≤ Real.exp (-2) := by
          have : Real.exp (-2) = Real.exp (-1) ^ 2 := by rw [← Real.exp_nat_mul]; norm_num
          rw [this]
          exact le_trans (by norm_num) (pow_le_pow_left₀ (by norm_num) (lt_trans (by norm_num) Real.exp_neg_one_gt_d9 : (0.367879 : ℝ) < _).le 2)
        have h3' : (0.0134 : ℝ) * 200 * 0.1353 ≤ 0.0134 * x * Real.exp (-0.005 * x) :=
          mul_le_mul (mul_le_mul_of_nonneg_left h1 (by norm_num)) (h2'.trans h1') (by norm_num) (by positivity)
        exact le_trans (by norm_num) h3'
      obtain ⟨w, ew⟩ : ∃ w, w = 0.0134 * x * Real.exp (-0.005 * x) := ⟨_, rfl⟩
      rw [← ew] at w0 w1 hw ⊢
      have hl : 5.26 ≤ Real.log x := by
        have h1' : Real.log 200 ≤ Real.log x := Real.log_le_log (by norm_num) h1
        have := log_ge_pow2 (y := (200:ℝ)) 8 (by norm_num)
        norm_num at *; linarith
      have hn := near h
      have hf : farGain x ≤ 0.05751 * x - 22.8 := by unfold farGain; norm_num at *; linarith
      generalize nearGain x = N at *
      generalize farGain x = F at *
      have hm : w * N + (1 - w) * F ≤ w * (0.05751 * x - 33) + (1 - w) * (0.05751 * x - 22.8) :=
        add_le_add (mul_le_mul_of_nonneg_left hn w0) (mul_le_mul_of_nonneg_left hf (by norm_num at *; linarith))
      norm_num at *; nlinarith
    · linarith [near h]
    · norm_num; linarith
    · push Not at h2
      push Not at h1
      exact gain_low hx h1 h2.1 hk2 h2.2
  · intro h
    unfold heightGain
    split_ifs with h1 h2 h3
    · exact le_rfl
    · dsimp only
      obtain ⟨w0, w1⟩ := fht_weight hx.le
      obtain ⟨w, ew⟩ : ∃ w, w = 0.0134 * x * Real.exp (-0.005 * x) := ⟨_, rfl⟩
      rw [← ew] at w0 w1 ⊢
      have : w * nearGain x ≤ w * farGain x := mul_le_mul_of_nonneg_left nf w0
      have e : farGain x = 0.05751 * x - 4.343 * Real.log x := rfl
      rw [← e]
      linarith
    all_goals linarith

/-- The line at the horizon. -/
theorem horizon_pos {x y k l c : ℝ} (hx : 0 < x) (hy : 0 < y) (hk0 : 0 < k) (hk2 : k ≤ 0.05) (hl0 : 0 < l) (hl2 : l ≤ 0.05) (hc0 : 0 < c)
    (hc : c ≤ 335) : 0 < 0.05751 * (x + y) - 4.343 * Real.log (c + (x + y)) - (20 + heightGain x k + heightGain y l) := by
  have l2 := log2_bounds
  obtain ⟨a1, a2⟩ := gain_bound hx hk0 hk2
  obtain ⟨b1, b2⟩ := gain_bound hy hl0 hl2
  have lc : Real.log (c + (x + y)) ≤ Real.log (335 + (x + y)) := Real.log_le_log (by positivity) (by linarith)
  have mixed : ∀ {u v : ℝ}, 0 < u → u ≤ 400 → 400 ≤ v → Real.log (335 + (u + v)) ≤ Real.log v + 1.115 := by
    intro u v hu0 hu hv
    have hv0 : 0 < v := by linarith
    have h1 := log_le_pow2 (y := (335 + (u + v)) / v) 1 (by positivity)
    have h2 : (335 + (u + v)) / v ≤ 2.84 := by rw [div_le_iff₀ hv0]; norm_num; linarith
    rw [Real.log_div (by positivity) hv0.ne'] at h1
    norm_num at *; linarith
  rcases le_total x 400 with cx | cx <;> rcases le_total y 400 with cy | cy
  · have h1 := a1 cx
    have h2 := b1 cy
    have h3 := log_le_pow2 (y := 335 + (x + y)) 10 (by positivity)
    norm_num at *; linarith
  · have h1 := a1 cx
    have h2 := b2 cy
    have h3 := mixed hx cx cy
    norm_num at *; linarith
  · have h1 := a2 cx
    have h2 := b1 cy
    have h3 := mixed hy cy cx
    rw [add_comm y x] at h3
    norm_num at *; linarith
  · have h1 := a2 cx
    have h2 := b2 cy
    have hp : 0 < 335 + (x + y) := by positivity
    have h4 : 140 ≤ x * y / (335 + (x + y)) := by rw [le_div_iff₀ hp]; nlinarith
    have h3 := log_ge_pow2 (y := x * y / (335 + (x + y))) 7 (by positivity)
    have h5 : 2 ^ 7 / (x * y / (335 + (x + y))) ≤ 2 ^ 7 / 140 := div_le_div_of_nonneg_left (by norm_num) (by norm_num) h4
    rw [Real.log_div (by positivity) hp.ne', Real.log_mul hx.ne' hy.ne'] at h3
    generalize 2 ^ 7 / (x * y / (335 + (x + y))) = Q at *
    norm_num at *; linarith

namespace SmoothEarth
variable {i : LrIn ℝ} (h : SmoothEarth i)
include h

theorem pk_range : 0 < 1.0 / i.zgnd.abs / K i ∧ 1.0 / i.zgnd.abs / K i ≤ 0.05 := by
  have hK := h.K_ge; have hz := h.zabs
  have hz0 : 0 < i.zgnd.abs := cxabs_pos h.zre
  have hK0 := h.K_pos
  refine ⟨by positivity, ?_⟩
  rw [div_le_iff₀ h.K_pos, div_le_iff₀ hz0]; norm_num at *; nlinarith

/-- The diffraction line is positive at the horizon. -/
theorem line_pos {mdp : Int} {f0 f1 : ℝ}
    (e0 : fht (termQ i.wn (1.0 / i.zgnd.abs) i.dl.x0 i.he.x0) (termPk i.wn (1.0 / i.zgnd.abs) i.dl.x0 i.he.x0) = .ok f0)
    (e1 : fht (termQ i.wn (1.0 / i.zgnd.abs) i.dl.x1 i.he.x1) (termPk i.wn (1.0 / i.zgnd.abs) i.dl.x1 i.he.x1) = .ok f1) :
    0 < (lineR i (horR i) (diffR mdp i f0 f1)).aed + (lineR i (horR i) (diffR mdp i f0 f1)).emd * (i.dl.x0 + i.dl.x1) := by
  have hg := h.gpos.ne'; have hK := h.K_pos.ne'
  have q0 : termQ i.wn (1.0 / i.zgnd.abs) i.dl.x0 i.he.x0 = b i * (K i * i.gme) * i.dl.x0 := by
    unfold termQ termPk b
    rw [h.wa0, h.a0]; field_simp
  have q1 : termQ i.wn (1.0 / i.zgnd.abs) i.dl.x1 i.he.x1 = b i * (K i * i.gme) * i.dl.x1 := by
    unfold termQ termPk b
    rw [h.wa1, h.a1]; field_simp
  have k0 : termPk i.wn (1.0 / i.zgnd.abs) i.dl.x0 i.he.x0 = 1.0 / i.zgnd.abs / K i := by unfold termPk; rw [h.wa0]
  have k1 : termPk i.wn (1.0 / i.zgnd.abs) i.dl.x1 i.he.x1 = 1.0 / i.zgnd.abs / K i := by unfold termPk; rw [h.wa1]
  rw [q0, k0] at e0
  rw [q1, k1] at e1
  have g0 := Props.fht_spec e0
  have g1 := Props.fht_spec e1
  have hb := h.b_ge
  have hb2 : 1.3787 * b i ≤ 335 := by
    have := h.pk_range.1
    unfold b
    norm_num at *; linarith
  have hG0 : 0 < K i * i.gme := mul_pos h.K_pos h.gpos
  have hxa : xaeR i * (K i * i.gme) = 1 := by rw [h.xae]; exact inv_mul_cancel₀ hG0.ne'
  have hx0 := xaeR_pos h.adm
  have hd0 := h.adm.dl0; have hd1 := h.adm.dl1
  have d3 : d3R i (horR i) = 1.3787 * xaeR i + (i.dl.x0 + i.dl.x1) := by
    unfold d3R
    rw [h.hor]
    exact max_eq_right (by norm_num; linarith)
  have d4 : d4R i (horR i) = 1.3787 * xaeR i + (i.dl.x0 + i.dl.x1) + 2.7574 * xaeR i := by
    unfold d4R; rw [d3]
  have l3 : i.dl.x0 + i.dl.x1 < 1.3787 * xaeR i + (i.dl.x0 + i.dl.x1) := by norm_num; linarith
  have l4 : i.dl.x0 + i.dl.x1 < 1.3787 * xaeR i + (i.dl.x0 + i.dl.x1) + 2.7574 * xaeR i := by norm_num; linarith
  have eX : b i * (K i * i.gme) * (i.dl.x0 + i.dl.x1) = b i * (K i * i.gme) * i.dl.x0 + b i * (K i * i.gme) * i.dl.x1 := by ring
  have t3 : b i * (K i * i.gme) * (1.3787 * xaeR i + (i.dl.x0 + i.dl.x1)) =
      1.3787 * b i + (b i * (K i * i.gme) * i.dl.x0 + b i * (K i * i.gme) * i.dl.x1) := by
    calc _ = 1.3787 * b i * (xaeR i * (K i * i.gme)) + b i * (K i * i.gme) * (i.dl.x0 + i.dl.x1) := by ring
      _ = _ := by rw [hxa, mul_one, eX]
  have t4 : b i * (K i * i.gme) * (1.3787 * xaeR i + (i.dl.x0 + i.dl.x1) + 2.7574 * xaeR i) =
      4.1361 * b i + (b i * (K i * i.gme) * i.dl.x0 + b i * (K i * i.gme) * i.dl.x1) := by
    calc _ = 4.1361 * b i * (xaeR i * (K i * i.gme)) + b i * (K i * i.gme) * (i.dl.x0 + i.dl.x1) := by ring
      _ = _ := by rw [hxa, mul_one, eX]
  have hb0 : 0 < b i := by linarith
  have X0 : 0 < b i * (K i * i.gme) * i.dl.x0 := by positivity
  have X1 : 0 < b i * (K i * i.gme) * i.dl.x1 := by positivity
  have main := horizon_pos X0 X1 h.pk_range.1 h.pk_range.2 h.pk_range.1 h.pk_range.2 (c := 1.3787 * b i) (by positivity) hb2
  rw [← g0, ← g1] at main
  unfold lineR
  dsimp only
  unfold emdR
  rw [h.adiff_eq, h.adiff_eq, d3, d4]
  unfold roundedR
  rw [h.q_eq l3, h.q_eq l4, t3, t4]
  generalize b i * (K i * i.gme) * i.dl.x0 = X at *
  generalize b i * (K i * i.gme) * i.dl.x1 = Y at *
  have hlog : Real.log (1.3787 * b i + (X + Y)) ≤ Real.log (4.1361 * b i + (X + Y)) := Real.log_le_log (by positivity) (by norm_num; linarith)
  have ea : (diffR mdp i f0 f1).aht = 20 + f0 + f1 := by simp only [diffR]; norm_num
  rw [ea, show 1.3787 * xaeR i + (i.dl.x0 + i.dl.x1) + 2.7574 * xaeR i - (1.3787 * xaeR i + (i.dl.x0 + i.dl.x1)) = 2.7574 * xaeR i by ring]
  generalize Real.log (4.1361 * b i + (X + Y)) = L4 at *
  generalize Real.log (1.3787 * b i + (X + Y)) = L3 at *
  obtain ⟨A, hA⟩ : ∃ A, A = 0.05751 * (1.3787 * b i + (X + Y)) - 4.343 * L3 - (20 + f0 + f1) := ⟨_, rfl⟩
  obtain ⟨B, hB⟩ : ∃ B, B = 0.05751 * (4.1361 * b i + (X + Y)) - 4.343 * L4 - (20 + f0 + f1) := ⟨_, rfl⟩
  rw [← hA, ← hB]
  have hx := hx0.ne'
  have e : A - (B - A) / (2.7574 * xaeR i) * (1.3787 * xaeR i + (i.dl.x0 + i.dl.x1)) + (B - A) / (2.7574 * xaeR i) * (i.dl.x0 + i.dl.x1) =
      A - (B - A) / 2 := by
    have : (B - A) / (2.7574 * xaeR i) * (1.3787 * xaeR i) = (B - A) / 2 := by
      rw [div_mul_eq_mul_div, div_eq_div_iff (by positivity) (by norm_num)]; norm_num; ring
    rw [← this]; ring
  rw [e, hA, hB]
  norm_num at *; linarith

/-- Smooth earth: the line-of-sight coefficients exist. -/
theorem los (hz : ZSafe i.zgnd) {mdp : Int} {s : Setup ℝ} (hs : setupC mdp i = .ok s) : ∃ k, losC i s.h s.l = .ok k := by
  obtain ⟨f0, f1, e0, e1, hs'⟩ := setupC_total (mdp := mdp) h.adm h.ground
  rw [hs'] at hs
  cases ok_inj.1 hs
  have hp := h.line_pos (mdp := mdp) e0 e1
  have he : 0 < (lineR i (horR i) (diffR mdp i f0 f1)).emd := lt_trans (by norm_num) (h.emd_ge (mdp := mdp) (f0 := f0) (f1 := f1))
  have hd0 := h.adm.dl0; have hd1 := h.adm.dl1
  have hsa : (horR i).dlsa = i.dl.x0 + i.dl.x1 := by rw [h.hor]
  have hla : (horR i).dla = i.dl.x0 + i.dl.x1 := rfl
  dsimp only
  obtain ⟨l, hl⟩ : ∃ l, l = lineR i (horR i) (diffR mdp i f0 f1) := ⟨_, rfl⟩
  rw [← hl] at hp he ⊢
  have h2 : (losDR i (horR i) l).2 < (horR i).dlsa := by
    have := Props.C24_fit_below_horizon (k := i.wn) (h₀ := i.he.x0) (h₁ := i.he.x1) (dla := (horR i).dla) (dlsa := (horR i).dlsa) (aed := l.aed)
      (by rw [hsa, hla]; norm_num; linarith) (by rw [hla]; linarith) he (by rw [hsa]; exact hp)
    have e5 : 0.5 * (horR i).dla = (horR i).dla / 2 := by norm_num; ring
    have e25 : ∀ x : ℝ, 0.25 * x = x / 4 := fun x => by norm_num; ring
    unfold losDR
    unfold fitDistances at this
    simp only [e5, e25]
    exact this
  exact losC_ok h.adm hz (.inr he.ne') h2.ne' (fun c => (c.trans h2).ne')

end SmoothEarth
end Itm
