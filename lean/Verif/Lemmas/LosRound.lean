import Verif.Lemmas.CxRound
import Verif.Lemmas.AdiffRound
import Verif.Lemmas.PrepRound
import Verif.Lemmas.ElemRound
import Verif.Lemmas.Binary64
import Verif.Props.C29
import Verif.Spec.LosData

/-! The line-of-sight attenuation in rounding arithmetic. -/

namespace Itm
open Spec
variable {α : Type} [PyNum α] {R : Rounding α}

/-- `x ** 0.25` -/
theorem RL.quarter {a : α} {x r t : ℝ} (h : RL R a x r) (hr : r ≤ 1 / 100) (h1 : 1e-30 ≤ x) (h2 : x ≤ 1e30) (ht : r + 1.5e-15 ≤ t) :
    pyPow a 0.25 = .ok (PyNum.rpow a 0.25) ∧ RL R (PyNum.rpow a 0.25) (x ^ (1 / 4 : ℝ)) t := by
  have xp := h.pos
  have vp := h.val_pos (by linarith)
  obtain ⟨fq, vq⟩ := Near.lit_exact R (m := 25) (s := true) (k := 2) 1 (-2) (by norm_num) (by norm_num) (by norm_num) (by norm_num)
  obtain ⟨fz, vz⟩ := fin_zero R
  have vq' : R.val (0.25 : α) = 1 / 4 := by rw [vq]; norm_num
  have r0 := h.nonneg
  have hge := h.ge
  have hle := h.le
  have root_lo : 1e-20 ≤ x ^ (1 / 4 : ℝ) := by
    calc (1e-20 : ℝ) ≤ (1e-30 : ℝ) ^ (1 / 4 : ℝ) := by
          rw [show (1e-30 : ℝ) = ((1e-30 : ℝ)) ^ (1 : ℝ) by rw [Real.rpow_one], ← Real.rpow_mul (by norm_num)]
          calc (1e-20 : ℝ) = (1e-20 : ℝ) ^ (1 : ℝ) := by rw [Real.rpow_one]
            _ ≤ _ := by
              rw [show (1e-20 : ℝ) = ((10 : ℝ) ^ (-20 : ℝ)) by rw [Real.rpow_neg (by norm_num)]; norm_num,
                show (1e-30 : ℝ) = ((10 : ℝ) ^ (-30 : ℝ)) by rw [Real.rpow_neg (by norm_num)]; norm_num, ← Real.rpow_mul (by norm_num), ← Real.rpow_mul (by norm_num)]
              exact Real.rpow_le_rpow_of_exponent_le (by norm_num) (by norm_num)
      _ ≤ _ := Real.rpow_le_rpow (by norm_num) h1 (by norm_num)
  have root_hi : x ^ (1 / 4 : ℝ) ≤ 1e30 := by
    calc x ^ (1 / 4 : ℝ) ≤ (1e30 : ℝ) ^ (1 / 4 : ℝ) := Real.rpow_le_rpow xp.le h2 (by norm_num)
      _ ≤ (1e30 : ℝ) ^ (1 : ℝ) := Real.rpow_le_rpow_of_exponent_le (by norm_num) (by norm_num)
      _ = _ := Real.rpow_one _
  have hv : |R.val a ^ (1 / 4 : ℝ) - x ^ (1 / 4 : ℝ)| ≤ r * x ^ (1 / 4 : ℝ) := by
    have e : R.val a = x * (R.val a / x) := by field_simp
    have q1 : 1 - r ≤ R.val a / x := by rw [le_div_iff₀ xp]; linarith
    have q2 : R.val a / x ≤ 1 + r := by rw [div_le_iff₀ xp]; linarith
    rw [e, Real.mul_rpow xp.le (by linarith)]
    generalize R.val a / x = y at *
    have y0 : 0 < y := by linarith
    have u : y ^ (1 / 4 : ℝ) ≤ 1 + r := by
      rcases le_total y 1 with c | c
      · exact (Real.rpow_le_one y0.le c (by norm_num)).trans (by linarith)
      · exact (Real.rpow_le_rpow_of_exponent_le c (by norm_num : (1 / 4 : ℝ) ≤ 1)).trans (by rw [Real.rpow_one]; exact q2)
    have l : 1 - r ≤ y ^ (1 / 4 : ℝ) := by
      rcases le_total 1 y with c | c
      · exact le_trans (by linarith) (Real.one_le_rpow c (by norm_num))
      · refine q1.trans ?_
        calc y = y ^ (1 : ℝ) := (Real.rpow_one y).symm
          _ ≤ _ := Real.rpow_le_rpow_of_exponent_ge y0 c (by norm_num)
    have xq : 0 ≤ x ^ (1 / 4 : ℝ) := Real.rpow_nonneg xp.le _
    rw [show x ^ (1 / 4 : ℝ) * y ^ (1 / 4 : ℝ) - x ^ (1 / 4 : ℝ) = (y ^ (1 / 4 : ℝ) - 1) * x ^ (1 / 4 : ℝ) by ring, abs_mul, abs_of_nonneg xq]
    exact mul_le_mul_of_nonneg_right (abs_le.2 ⟨by linarith, by linarith⟩) xq
  have hsz : R.val a ^ (1 / 4 : ℝ) ≤ 1.01 * x ^ (1 / 4 : ℝ) := by
    have := (abs_le.1 hv).2
    have := mul_le_mul_of_nonneg_right hr (Real.rpow_nonneg xp.le (1 / 4 : ℝ))
    norm_num at *; linarith
  obtain ⟨f, e⟩ := R.rpow a 0.25 h.fin fq vp (by rw [vq']; exact le_roundBig (hsz.trans (by clear * - root_hi; norm_num at *; linarith)))
  rw [vq'] at e
  refine ⟨?_, f, ?_, root_lo.trans' (by norm_num), root_hi.trans (by norm_num)⟩
  · unfold pyPow
    rw [if_neg (by rw [R.lt _ _ h.fin fz, vz]; exact not_lt.2 vp.le), if_neg (fun k => ?_)]
    have := (pyEq_round h.fin fz).1 k.1
    rw [vz] at this; linarith
  · have t1 := abs_sub_le (R.val (PyNum.rpow a 0.25)) (R.val a ^ (1 / 4 : ℝ)) (x ^ (1 / 4 : ℝ))
    have e1 := mul_le_mul_of_nonneg_right roundEps_le (Real.rpow_nonneg vp.le (1 / 4 : ℝ))
    have e2 := roundTiny_le
    have e3 := mul_le_mul_of_nonneg_right ht (Real.rpow_nonneg xp.le (1 / 4 : ℝ))
    generalize x ^ (1 / 4 : ℝ) = X at *
    generalize R.val a ^ (1 / 4 : ℝ) = Y at *
    clear * - t1 e e1 e2 e3 hv hsz root_lo
    norm_num at *
    linarith

/-- The terrain irregularity at a distance. -/
theorem losIrr_round {d h : α} (hd : R.fin d) (d1 : 1 ≤ R.val d) (d2 : R.val d ≤ 1e7) (hh : R.fin h) (h1 : 1e-3 ≤ R.val h) (h2 : R.val h ≤ 1e4) :
    RL R ((1.0 - 0.8 * PyNum.exp (-d / 50e3)) * h) (irregularity (R.val h) (R.val d)) 5e-12 ∧ 2e-4 ≤ irregularity (R.val h) (R.val d) ∧
      irregularity (R.val h) (R.val d) ≤ 1e4 := by
  have hdp : 0 < R.val d := lt_of_lt_of_le (by norm_num) d1
  have hhp : 0 < R.val h := lt_of_lt_of_le (by norm_num) h1
  have h50 : Near R (50e3 : α) (50000 : ℝ) 0 := by
    have := Near.lit_int R (m := 50) (s := false) (k := 3) 50000 (by norm_num) (by norm_num)
    exact Near.of_eq this.1 (this.2.trans (by norm_num))
  have ha : Near R (-d / 50e3) (-R.val d / 50000) 3e-13 :=
    ((Near.self hd).neg.div h50 (Q := 200) (m := 50000) (M := 200)
      (by rw [abs_div, abs_neg, abs_of_pos hdp, abs_of_pos (by norm_num : (0 : ℝ) < 50000), div_le_iff₀ (by norm_num)]; clear * - d2; norm_num at *; linarith)
      (by rw [abs_of_pos (by norm_num : (0 : ℝ) < 50000)]) (by norm_num) (by norm_num) (by norm_num) (by norm_num)).1
  have hE1 : Real.exp (-R.val d / 50000) ≤ 1 := Real.exp_le_one_iff.2 (div_nonpos_of_nonpos_of_nonneg (by linarith) (by norm_num))
  have hE0 := Real.exp_pos (-R.val d / 50000)
  have hE : NB R (PyNum.exp (-d / 50e3)) (Real.exp (-R.val d / 50000)) 1 7e-13 :=
    ⟨ha.exp (M := 1) hE1 (by norm_num) (by norm_num) (by norm_num), by rw [abs_of_pos hE0]; exact hE1⟩
  have h08 : NB R (0.8 : α) (0.8 : ℝ) 0.8 1e-15 := NB.lit R (by norm_num) (by norm_num) (by norm_num)
  have hone : NB R (1.0 : α) (1 : ℝ) 1 0 := by
    have := Near.lit_int R (m := 10) (s := true) (k := 1) 1 (by norm_num) (by norm_num)
    exact ⟨Near.of_eq this.1 (this.2.trans (by norm_num)), by norm_num⟩
  have hf : NB R (1.0 - 0.8 * PyNum.exp (-d / 50e3)) (1 - 0.8 * Real.exp (-R.val d / 50000)) 2 7e-13 :=
    hone.sub (h08.mul hE (Z := 0.8) (g := 6e-13) (by norm_num) (by norm_num) (by norm_num)) (by norm_num) (by norm_num) (by norm_num)
  unfold irregularity
  generalize PyNum.exp (-d / 50e3) = Ea at *
  generalize Real.exp (-R.val d / 50000) = E at *
  have hfl : 0.2 ≤ 1 - 0.8 * E := by clear * - hE1; norm_num at *; linarith
  have hfu : 1 - 0.8 * E ≤ 1 := by clear * - hE0; norm_num at *; linarith
  generalize 1.0 - 0.8 * Ea = fa at *
  generalize (1 : ℝ) - 0.8 * E = f at *
  have hfp : 0 < f := lt_of_lt_of_le (by norm_num) hfl
  have hr : RL R fa f 4e-12 := ⟨hf.fin, hf.err.trans (by clear * - hfl; norm_num at *; linarith), le_trans (by norm_num) hfl, hfu.trans (by norm_num)⟩
  have lo : 2e-4 ≤ f * R.val h := by
    have := mul_le_mul hfl h1 (by norm_num) hfp.le
    exact le_trans (by norm_num) this
  have hi : f * R.val h ≤ 1e4 := by
    have := mul_le_mul hfu h2 hhp.le zero_le_one
    exact this.trans (by norm_num)
  exact ⟨hr.mul (RL.self hh (le_trans (by norm_num) h1) (h2.trans (by norm_num))) (by norm_num) (by norm_num) (le_trans (by norm_num) lo) (hi.trans (by norm_num)) (by norm_num), lo, hi⟩

theorem exp_neg_ge {x : ℝ} (h : x ≤ 10) : 4e-5 ≤ Real.exp (-x) := by
  have h1 : Real.exp (-10) ≤ Real.exp (-x) := Real.exp_le_exp.2 (by linarith)
  refine le_trans ?_ h1
  rw [Real.exp_neg, show (10 : ℝ) = ((10 : ℕ) : ℝ) * 1 by norm_num, Real.exp_nat_mul]
  have e := Real.exp_one_lt_d9
  have e0 := Real.exp_pos 1
  have : Real.exp 1 ^ 10 ≤ 25000 := by
    calc Real.exp 1 ^ 10 ≤ (2.72 : ℝ) ^ 10 := pow_le_pow_left₀ e0.le (by clear * - e; norm_num at *; linarith) _
      _ ≤ _ := by norm_num
  calc (4e-5 : ℝ) = 25000⁻¹ := by norm_num
    _ ≤ _ := inv_anti₀ (by positivity) this

/-- The standard deviation of the terrain heights. -/
theorem sigma_round {q : α} {Q : ℝ} (hq : RL R q Q 5e-12) (q1 : 2e-4 ≤ Q) (q2 : Q ≤ 1e4) :
    ∃ p, pyPow (q / 16.0) 0.25 = .ok p ∧ RL R (0.78 * q * PyNum.exp (-p)) (terrainSigma Q) 6.2e-11 ∧ 6e-9 ≤ terrainSigma Q ∧ terrainSigma Q ≤ 1e4 := by
  have l16 := Near.lit_int R (m := 160) (s := true) (k := 1) 16 (by norm_num) (by norm_num)
  have h16 : RL R (16.0 : α) 16 0 := RL.of_eq l16.1 (l16.2.trans (by norm_num)) (by norm_num) (by norm_num)
  have Qp := hq.pos
  have lo : 1e-5 ≤ Q / 16 := by rw [le_div_iff₀ (by norm_num)]; clear * - q1; norm_num at *; linarith
  have hi : Q / 16 ≤ 625 := by rw [div_le_iff₀ (by norm_num)]; clear * - q2; norm_num at *; linarith
  obtain ⟨n1, -⟩ := hq.div h16 (t := 5.1e-12) (by norm_num) (by norm_num) (lo.trans' (by norm_num)) (hi.trans (by norm_num)) (by norm_num)
  obtain ⟨e, n2⟩ := n1.quarter (t := 5.2e-12) (by norm_num) (lo.trans' (by norm_num)) (hi.trans (by norm_num)) (by norm_num)
  have root : (Q / 16) ^ (1 / 4 : ℝ) ≤ 5 := by
    calc (Q / 16) ^ (1 / 4 : ℝ) ≤ (625 : ℝ) ^ (1 / 4 : ℝ) := Real.rpow_le_rpow (by positivity) hi (by norm_num)
      _ = ((5 : ℝ) ^ (4 : ℕ)) ^ (1 / 4 : ℝ) := by norm_num
      _ = 5 := by rw [← Real.rpow_natCast, ← Real.rpow_mul (by norm_num)]; norm_num
  have rp : 0 < (Q / 16) ^ (1 / 4 : ℝ) := Real.rpow_pos_of_pos (by positivity) _
  refine ⟨_, e, ?_⟩
  unfold terrainSigma
  have n3 : Near R (-PyNum.rpow (q / 16.0) 0.25) (-(Q / 16) ^ (1 / 4 : ℝ)) 2.6e-11 :=
    Near.neg ⟨n2.fin, n2.err.trans (by clear * - root; norm_num at *; linarith)⟩
  have ge := exp_neg_ge (x := (Q / 16) ^ (1 / 4 : ℝ)) (by linarith)
  have le1 : Real.exp (-(Q / 16) ^ (1 / 4 : ℝ)) ≤ 1 := Real.exp_le_one_iff.2 (by linarith)
  have n4 := RL.exp n3 (t := 5.3e-11) (by norm_num) (ge.trans' (by norm_num)) (le1.trans (by norm_num)) (by norm_num)
  have c : RL R (0.78 : α) (0.78 : ℝ) 1.5e-15 := RL.lit R (by norm_num) (by norm_num)
  have n5 : RL R (0.78 * q) (0.78 * Q) 5.1e-12 := c.mul hq (by norm_num) (by norm_num) (by clear * - q1; norm_num at *; linarith) (by clear * - q2; norm_num at *; linarith) (by norm_num)
  generalize Real.exp (-(Q / 16) ^ (1 / 4 : ℝ)) = E at *
  have lo2 : 6e-9 ≤ 0.78 * Q * E := by
    have : 0.78 * 2e-4 ≤ 0.78 * Q := by clear * - q1; norm_num at *; linarith
    exact le_trans (by norm_num) (mul_le_mul this ge (by norm_num) (by positivity))
  have hi2 : 0.78 * Q * E ≤ 1e4 := by
    have : 0.78 * Q ≤ 1e4 := by clear * - q2; norm_num at *; linarith
    exact (mul_le_mul this le1 (ge.trans' (by norm_num)) (by norm_num)).trans (by norm_num)
  exact ⟨n5.mul n4 (by norm_num) (by norm_num) (lo2.trans' (by norm_num)) (hi2.trans (by norm_num)) (by norm_num), lo2, hi2⟩

/-- The sine of the grazing angle. -/
theorem graze_round {d a b : α} (hd : R.fin d) (d1 : 1 ≤ R.val d) (d2 : R.val d ≤ 1e7) (ha : R.fin a) (a1 : 0.01 ≤ R.val a) (a2 : R.val a ≤ 1e5)
    (hb : R.fin b) (b1 : 0.01 ≤ R.val b) (b2 : R.val b ≤ 1e5) :
    ∃ u s, mathSqrt (npow d 2 + npow (a + b) 2) = .ok u ∧ (a + b) /! u = .ok s ∧ RL R s (grazing (R.val a) (R.val b) (R.val d)) 1e-14 ∧
      1e-10 ≤ grazing (R.val a) (R.val b) (R.val d) ∧ grazing (R.val a) (R.val b) (R.val d) ≤ 1 := by
  have dp : 0 < R.val d := by linarith
  have hs : RL R (a + b) (R.val a + R.val b) 1.5e-15 :=
    (RL.self ha (a1.trans' (by norm_num)) (a2.trans (by norm_num))).add (RL.self hb (b1.trans' (by norm_num)) (b2.trans (by norm_num))) (by norm_num)
      (by clear * - a2 b2; norm_num at *; linarith) (by norm_num)
  have hq := (RL.self hd (d1.trans' (by norm_num)) (d2.trans (by norm_num))).sq_rel (t := 6.2e-15) (by norm_num)
    (by nlinarith) (d2.trans (by norm_num)) (by norm_num)
  unfold grazing
  have s1 : 0.02 ≤ R.val a + R.val b := by clear * - a1 b1; norm_num at *; linarith
  have s2 : R.val a + R.val b ≤ 2e5 := by clear * - a2 b2; norm_num at *; linarith
  generalize R.val a + R.val b = S at *
  generalize a + b = sa at *
  have Sp : 0 < S := hs.pos
  have hq2 := hs.sq_rel (t := 6.2e-15) (by norm_num) (by nlinarith) (s2.trans (by norm_num)) (by norm_num)
  have dd : R.val d ^ 2 ≤ 1e14 := by
    calc R.val d ^ 2 ≤ (1e7 : ℝ) ^ 2 := pow_le_pow_left₀ dp.le d2 2
      _ = _ := by norm_num
  have ss : S ^ 2 ≤ 4e10 := by
    calc S ^ 2 ≤ (2e5 : ℝ) ^ 2 := pow_le_pow_left₀ Sp.le s2 2
      _ = _ := by norm_num
  have hsum := hq.add hq2 (t := 7.7e-15) (by norm_num) (by clear * - dd ss; norm_num at *; linarith) (by norm_num)
  have lo : 1 ≤ √(R.val d ^ 2 + S ^ 2) := Real.le_sqrt_of_sq_le (by nlinarith)
  have hi : √(R.val d ^ 2 + S ^ 2) ≤ 2e7 := by
    rw [Real.sqrt_le_left (by norm_num)]; clear * - dd ss; norm_num at *; linarith
  have gt : S ≤ √(R.val d ^ 2 + S ^ 2) := Real.le_sqrt_of_sq_le (by nlinarith)
  -- the square root halves the error
  have hv := hsum.val_pos (by norm_num)
  obtain ⟨f, v⟩ := R.sqrt _ hsum.fin hv.le
  have er : |√(R.val (npow d 2 + npow sa 2)) - √(R.val d ^ 2 + S ^ 2)| ≤ 4e-15 * √(R.val d ^ 2 + S ^ 2) := by
    have e0 := hsum.err
    have p0 := hsum.pos
    generalize R.val (npow d 2 + npow sa 2) = x at *
    generalize R.val d ^ 2 + S ^ 2 = y at *
    have sy : 0 < √y := by positivity
    have sx : 0 < √x := by positivity
    have m := Real.mul_self_sqrt p0.le
    have n := Real.mul_self_sqrt hv.le
    have k : (√x - √y) * (√x + √y) = x - y := by nlinarith
    have ge : (1 - 1e-10) * √y ≤ √x := by
      refine Real.le_sqrt_of_sq_le ?_
      rw [mul_pow, Real.sq_sqrt p0.le]
      have := (abs_le.1 e0).1
      clear * - this p0; norm_num at *; linarith
    have abs1 : |√x - √y| * (√x + √y) ≤ 7.7e-15 * y := by
      rw [← abs_of_pos (by positivity : 0 < √x + √y), ← abs_mul, k]; exact e0
    have abs2 : |√x - √y| * ((2 - 1e-10) * √y) ≤ 7.7e-15 * (√y * √y) := by
      rw [m]; refine le_trans (mul_le_mul_of_nonneg_left ?_ (abs_nonneg _)) abs1; linarith
    have abs3 : |√x - √y| * (2 - 1e-10) ≤ 7.7e-15 * √y := by
      refine le_of_mul_le_mul_right ?_ sy; nlinarith
    clear * - abs3 sy; norm_num at abs3 ⊢; linarith
  have nu : RL R (PyNum.sqrt (npow d 2 + npow sa 2)) (√(R.val d ^ 2 + S ^ 2)) 5.6e-15 :=
    RL.of_rnd f v er (lo.trans' (by norm_num)) (hi.trans (by norm_num)) (by norm_num) (by norm_num)
  have q1 : 1e-10 ≤ S / √(R.val d ^ 2 + S ^ 2) := by
    rw [le_div_iff₀ (by linarith)]; clear * - hi s1; norm_num at *; linarith
  have q2 : S / √(R.val d ^ 2 + S ^ 2) ≤ 1 := by rw [div_le_one (by linarith)]; exact gt
  obtain ⟨n, e⟩ := hs.div nu (t := 1e-14) (by norm_num) (by norm_num) (q1.trans' (by norm_num)) (q2.trans (by norm_num)) (by norm_num)
  exact ⟨_, _, mathSqrt_round hsum.fin hv.le, e, n, q1, q2⟩

/-- Scaling a complex number by a positive factor. -/
theorem NC.smul_rel {q : Cx α} {w : ℂ} {E : α} {E' r t g : ℝ} (h : NC R q w (r * ‖w‖)) (hE : RL R E E' t) (hr : r ≤ 1 / 100) (ht : t ≤ 1 / 100) (w1 : 1e-12 ≤ ‖w‖)
    (w2 : ‖w‖ ≤ 1e3) (E1 : 1e-12 ≤ E') (E2 : E' ≤ 1e12) (hg : r + 1.01 * t + 3e-15 ≤ g) : NC R (q.smul E) (w * (E' : ℂ)) (g * ‖w * (E' : ℂ)‖) := by
  have Ep := hE.pos
  have wp : 0 < ‖w‖ := lt_of_lt_of_le (by norm_num) w1
  have r0 : 0 ≤ r := by
    by_contra c
    have := (norm_nonneg _).trans h.err
    nlinarith
  have t0 := hE.nonneg
  have vE : R.val E ≤ 1.01 * E' := by
    have := hE.le
    nlinarith
  have vEp := hE.val_pos (by linarith)
  have sz : ‖cval R q‖ ≤ 1.01 * ‖w‖ := by
    have := norm_sub_norm_le (cval R q) w
    have := h.err
    nlinarith
  have size : ∀ x : ℝ, |x| ≤ ‖cval R q‖ → |x * R.val E| ≤ 1.03 * (‖w‖ * E') := fun x hx => by
    rw [abs_mul, abs_of_pos vEp]
    calc |x| * R.val E ≤ (1.01 * ‖w‖) * (1.01 * E') := mul_le_mul (hx.trans sz) vE vEp.le (by positivity)
      _ ≤ _ := by nlinarith [mul_pos wp Ep]
  have big : 1.03 * (‖w‖ * E') ≤ 1e100 := by
    have : ‖w‖ * E' ≤ 1e3 * 1e12 := mul_le_mul w2 E2 Ep.le (by norm_num)
    clear * - this; norm_num at *; linarith
  have lowWE : 1e-24 ≤ ‖w‖ * E' := le_trans (by norm_num) (mul_le_mul w1 E1 (by norm_num) wp.le)
  obtain ⟨f1, v1⟩ := R.mul q.re E h.re hE.fin (le_roundBig ((size _ (Complex.abs_re_le_norm (cval R q))).trans big))
  obtain ⟨f2, v2⟩ := R.mul q.im E h.im hE.fin (le_roundBig ((size _ (Complex.abs_im_le_norm (cval R q))).trans big))
  have e1 := Near.rnd_err R (size _ (Complex.abs_re_le_norm (cval R q))) big
  have e2 := Near.rnd_err R (size _ (Complex.abs_im_le_norm (cval R q))) big
  refine ⟨f1, f2, ?_⟩
  have a1 : ‖cval R (q.smul E) - cval R q * (R.val E : ℂ)‖ ≤ 2.5e-15 * (‖w‖ * E') := by
    refine (Complex.norm_le_abs_re_add_abs_im _).trans ?_
    have k1 : (cval R (q.smul E) - cval R q * (R.val E : ℂ)).re = R.rnd ((cval R q).re * R.val E) - (cval R q).re * R.val E := by
      have : (cval R (q.smul E)).re = R.rnd (R.val q.re * R.val E) := v1
      rw [Complex.sub_re, this, Complex.re_mul_ofReal]; rfl
    have k2 : (cval R (q.smul E) - cval R q * (R.val E : ℂ)).im = R.rnd ((cval R q).im * R.val E) - (cval R q).im * R.val E := by
      have : (cval R (q.smul E)).im = R.rnd (R.val q.im * R.val E) := v2
      rw [Complex.sub_im, this, Complex.im_mul_ofReal]; rfl
    rw [k1, k2]
    clear * - e1 e2 lowWE
    norm_num at *
    linarith
  have a2 : ‖cval R q * (R.val E : ℂ) - w * (E' : ℂ)‖ ≤ (r + 1.01 * t) * (‖w‖ * E') := by
    rw [show cval R q * (R.val E : ℂ) - w * (E' : ℂ) = (cval R q - w) * (E' : ℂ) + cval R q * ((R.val E - E' : ℝ) : ℂ) by push_cast; ring]
    refine (norm_add_le _ _).trans ?_
    rw [norm_mul, norm_mul, Complex.norm_real, Complex.norm_real, Real.norm_eq_abs, Real.norm_eq_abs, abs_of_pos Ep]
    have m1 := mul_le_mul_of_nonneg_right h.err Ep.le
    have m2 := mul_le_mul sz hE.err (abs_nonneg _) (by positivity)
    nlinarith
  have a3 := norm_sub_le_norm_sub_add_norm_sub (cval R (q.smul E)) (cval R q * (R.val E : ℂ)) (w * (E' : ℂ))
  rw [norm_mul, Complex.norm_real, Real.norm_eq_abs, abs_of_pos Ep]
  have := mul_le_mul_of_nonneg_right hg (mul_pos wp Ep).le
  nlinarith

/-- The square of the modulus, as computed. -/
theorem NC.absq {z : Cx α} {w : ℂ} {r g : ℝ} (h : NC R z w (r * ‖w‖)) (hr : r ≤ 1 / 100) (w1 : 1e-12 ≤ ‖w‖) (w2 : ‖w‖ ≤ 1e3) (hg : 2.02 * r + 2.5e-14 ≤ g) :
    RL R (npow z.abs 2) (‖w‖ ^ 2) g := by
  have wp : 0 < ‖w‖ := lt_of_lt_of_le (by norm_num) w1
  have r0 : 0 ≤ r := by
    by_contra c
    have := (norm_nonneg _).trans h.err
    nlinarith
  have c1 := (norm_sub_norm_le (cval R z) w).trans h.err
  have c2 : ‖w‖ - ‖cval R z‖ ≤ r * ‖w‖ := (norm_sub_norm_le w (cval R z)).trans (by rw [norm_sub_rev]; exact h.err)
  have cs : ‖cval R z‖ ^ 2 = R.val z.re * R.val z.re + R.val z.im * R.val z.im := by
    rw [← Complex.normSq_eq_norm_sq, Complex.normSq_apply]; rfl
  have c0 := norm_nonneg (cval R z)
  have cl : 9e-13 ≤ ‖cval R z‖ := by
    have := mul_le_mul_of_nonneg_right hr wp.le
    clear * - this c2 w1; norm_num at *; linarith
  have cu : ‖cval R z‖ ≤ 1.1e3 := by
    have := mul_le_mul_of_nonneg_right hr wp.le
    clear * - this c1 w2; norm_num at *; linarith
  have Vl : 8e-25 ≤ ‖cval R z‖ ^ 2 := by
    refine le_trans ?_ (pow_le_pow_left₀ (by norm_num) cl 2); norm_num
  have Vu : ‖cval R z‖ ^ 2 ≤ 2e6 := (pow_le_pow_left₀ c0 cu 2).trans (by norm_num)
  have s1 := mul_self_nonneg (R.val z.re)
  have s2 := mul_self_nonneg (R.val z.im)
  have near : RL R (z.normSq) (‖cval R z‖ ^ 2) 4e-15 := by
    have b1 : |R.val z.re * R.val z.re| ≤ ‖cval R z‖ ^ 2 := by rw [abs_of_nonneg s1, cs]; linarith
    have b2 : |R.val z.im * R.val z.im| ≤ ‖cval R z‖ ^ 2 := by rw [abs_of_nonneg s2, cs]; linarith
    have big : ‖cval R z‖ ^ 2 ≤ 1e100 := Vu.trans (by norm_num)
    obtain ⟨f1, v1⟩ := R.mul z.re z.re h.re h.re (le_roundBig (b1.trans big))
    obtain ⟨f2, v2⟩ := R.mul z.im z.im h.im h.im (le_roundBig (b2.trans big))
    have e1 := abs_le.1 (Near.rnd_err R (M := R.val z.re * R.val z.re) (by rw [abs_of_nonneg s1]) ((le_abs_self _).trans (b1.trans big)))
    have e2 := abs_le.1 (Near.rnd_err R (M := R.val z.im * R.val z.im) (by rw [abs_of_nonneg s2]) ((le_abs_self _).trans (b2.trans big)))
    rw [← v1] at e1
    rw [← v2] at e2
    have e3 : |R.val (z.re * z.re) + R.val (z.im * z.im) - ‖cval R z‖ ^ 2| ≤ 1.1e-15 * ‖cval R z‖ ^ 2 := by
      rw [abs_le]
      clear * - e1 e2 cs Vl
      constructor <;> norm_num at * <;> linarith
    obtain ⟨f3, v3⟩ := R.add _ _ f1 f2 (le_roundBig (by
      have := abs_le.1 e3
      rw [abs_le]
      clear * - this Vu Vl
      constructor <;> norm_num at * <;> linarith))
    exact RL.of_rnd f3 v3 e3 (Vl.trans' (by norm_num)) (Vu.trans (by norm_num)) (by norm_num) (by norm_num)
  have root := near.sqrt (t := 5.6e-15) (by norm_num) (by norm_num) (by rw [Real.sqrt_sq c0]; exact cl.trans' (by norm_num)) (by rw [Real.sqrt_sq c0]; exact cu.trans (by norm_num))
  rw [Real.sqrt_sq c0] at root
  have sq := root.1.sq_rel (t := 1.5e-14) (by norm_num) (Vl.trans' (by norm_num)) (cu.trans (by norm_num)) (by norm_num)
  have e4 : |‖cval R z‖ ^ 2 - ‖w‖ ^ 2| ≤ 2.01 * r * ‖w‖ ^ 2 := by
    have : |‖cval R z‖ - ‖w‖| ≤ r * ‖w‖ := abs_le.2 ⟨by linarith, by linarith⟩
    rw [show ‖cval R z‖ ^ 2 - ‖w‖ ^ 2 = (‖cval R z‖ - ‖w‖) * (‖cval R z‖ + ‖w‖) by ring, abs_mul, abs_of_nonneg (by positivity : 0 ≤ ‖cval R z‖ + ‖w‖)]
    calc _ ≤ (r * ‖w‖) * (2.01 * ‖w‖) := mul_le_mul this (by
          have := mul_le_mul_of_nonneg_right hr wp.le
          clear * - this c1; norm_num at *; linarith) (by positivity) (by positivity)
      _ = _ := by ring
  have W : 0 < ‖w‖ ^ 2 := by positivity
  refine ⟨sq.fin, ?_, ?_, ?_⟩
  · have t1 := abs_sub_le (R.val (npow z.abs 2)) (‖cval R z‖ ^ 2) (‖w‖ ^ 2)
    have t2 := sq.err
    have t3 : ‖cval R z‖ ^ 2 ≤ 1.1 * ‖w‖ ^ 2 := by
      have := (abs_le.1 e4).2
      have := mul_le_mul_of_nonneg_right hr W.le
      clear * - this e4 W
      have := (abs_le.1 e4).2
      norm_num at *; linarith
    have t4 := mul_le_mul_of_nonneg_right hg W.le
    have t5 := mul_nonneg r0 W.le
    change |R.val (npow z.abs 2) - ‖cval R z‖ ^ 2| ≤ _ at t2
    have W0 := W.le
    clear * - t1 t2 t3 t4 t5 e4 W0
    norm_num at t1 t2 t3 t4 t5 e4 ⊢
    linarith
  · exact le_trans (by norm_num) (pow_le_pow_left₀ (by norm_num) w1 2)
  · exact (pow_le_pow_left₀ wp.le w2 2).trans (by norm_num)

theorem sqrt_near_one {u e : ℝ} (h : |u - 1| ≤ e) (he : e ≤ 1 / 2) : |√u - 1| ≤ e := by
  have h1 := abs_le.1 h
  have u0 : 0 ≤ u := by linarith
  have m := Real.mul_self_sqrt u0
  have s0 := Real.sqrt_nonneg u
  have k : |√u - 1| * (√u + 1) = |u - 1| := by
    rw [← abs_of_pos (by positivity : 0 < √u + 1), ← abs_mul, show (√u - 1) * (√u + 1) = u - 1 by nlinarith]
  have := abs_nonneg (√u - 1)
  nlinarith

/-- The effective reflection coefficient. -/
theorem eff_round {r' : Cx α} {r : ℂ} {s : α} {S : ℝ} (h : NC R r' r (1.4e-9 * ‖r‖)) (hs : RL R s S 1e-14) (S1 : 1e-10 ≤ S) (S2 : S ≤ 1)
    (r1 : 4e-8 ≤ ‖r‖) (r2 : ‖r‖ ≤ 1) (hc : S < 1 / 4 → 1e-8 ≤ |‖r‖ ^ 2 - 1 / 4|) :
    ∃ x, (if npow r'.abs 2 < 0.25 ∨ npow r'.abs 2 < s then do
        let t ← mathSqrt (← s /! npow r'.abs 2)
        pure (r'.smul t)
      else pure r' : Py (Cx α)) = .ok x ∧ NC R x (effReflection S r) 1e-8 ∧ ‖effReflection S r‖ ≤ 1 := by
  have hq := h.absq (g := 2.9e-9) (by norm_num) (r1.trans' (by norm_num)) (r2.trans (by norm_num)) (by norm_num)
  generalize npow r'.abs 2 = q at *
  have Sp := hs.pos
  have rp : 0 < ‖r‖ := lt_of_lt_of_le (by norm_num) r1
  have Q1 : 1e-15 ≤ ‖r‖ ^ 2 := le_trans (by norm_num) (pow_le_pow_left₀ (by norm_num) r1 2)
  have Q2 : ‖r‖ ^ 2 ≤ 1 := pow_le_one₀ rp.le r2
  have Qp := hq.pos
  obtain ⟨fq, vq⟩ := Near.lit_exact R (m := 25) (s := true) (k := 2) 1 (-2) (by norm_num) (by norm_num) (by norm_num) (by norm_num)
  have vq' : R.val (0.25 : α) = 1 / 4 := by rw [vq]; norm_num
  have d1 : 1e-10 ≤ S / ‖r‖ ^ 2 := by
    rw [le_div_iff₀ Qp]; clear * - S1 Q2; norm_num at S1 ⊢; linarith
  have d2 : S / ‖r‖ ^ 2 ≤ 1e15 := by
    rw [div_le_iff₀ Qp]; clear * - S2 Q1; norm_num at Q1 ⊢; linarith
  obtain ⟨n1, e1⟩ := hs.div hq (t := 2.91e-9) (by norm_num) (by norm_num) (d1.trans' (by norm_num)) (d2.trans (by norm_num)) (by norm_num)
  have l1 : 1e-6 ≤ √(S / ‖r‖ ^ 2) := Real.le_sqrt_of_sq_le (le_trans (by norm_num) d1)
  have l2 : √(S / ‖r‖ ^ 2) ≤ 1e8 := by rw [Real.sqrt_le_left (by norm_num)]; exact d2.trans (by norm_num)
  obtain ⟨n2, e2⟩ := n1.sqrt (t := 3e-9) (by norm_num) (by norm_num) (l1.trans' (by norm_num)) (l2.trans (by norm_num))
  have n3 := h.smul_rel n2 (g := 4.5e-9) (by norm_num) (by norm_num) (r1.trans' (by norm_num)) (r2.trans (by norm_num)) (l1.trans' (by norm_num))
    (l2.trans (by norm_num)) (by norm_num)
  have nrm : ‖r * (√(S / ‖r‖ ^ 2) : ℂ)‖ = √S := by
    rw [norm_mul, Complex.norm_real, Real.norm_eq_abs, abs_of_nonneg (Real.sqrt_nonneg _), Real.sqrt_div Sp.le, Real.sqrt_sq rp.le]
    field_simp
  have sS : √S ≤ 1 := Real.sqrt_le_one.2 S2
  have sS0 := Real.sqrt_nonneg S
  rw [nrm] at n3
  -- the two ways to compute are close where the conditions may differ
  have close : ∀ {e : ℝ}, |S / ‖r‖ ^ 2 - 1| ≤ e → e ≤ 3.1e-9 → ‖r * (√(S / ‖r‖ ^ 2) : ℂ) - r‖ ≤ 3.1e-9 := fun he he' => by
    rw [show r * (√(S / ‖r‖ ^ 2) : ℂ) - r = r * ((√(S / ‖r‖ ^ 2) - 1 : ℝ) : ℂ) by push_cast; ring, norm_mul, Complex.norm_real, Real.norm_eq_abs]
    have := sqrt_near_one (he.trans he') (by norm_num)
    calc _ ≤ 1 * 3.1e-9 := mul_le_mul r2 this (abs_nonneg _) zero_le_one
      _ = _ := by norm_num
  have qe := abs_le.1 hq.err
  have se := abs_le.1 hs.err
  unfold effReflection
  have hiff : (q < 0.25 ∨ q < s) ↔ (R.val q < 1 / 4 ∨ R.val q < R.val s) := by rw [R.lt _ _ hq.fin fq, R.lt _ _ hq.fin hs.fin, vq']
  by_cases c' : R.val q < 1 / 4 ∨ R.val q < R.val s
  · rw [if_pos (hiff.2 c'), e1, ok_bind, e2, ok_bind, pure_ok]
    refine ⟨_, rfl, ?_⟩
    by_cases c : ‖r‖ ^ 2 < 1 / 4 ∨ ‖r‖ ^ 2 < S
    · rw [if_pos c]
      refine ⟨n3.mono (by clear * - sS; generalize √S = y at *; norm_num at *; linarith), by rw [nrm]; exact sS⟩
    · rw [if_neg c]
      push Not at c
      refine ⟨⟨n3.re, n3.im, ?_⟩, r2⟩
      have t := norm_sub_le_norm_sub_add_norm_sub (cval R (r'.smul (PyNum.sqrt (s / q)))) (r * (√(S / ‖r‖ ^ 2) : ℂ)) r
      have t2 := n3.err
      have hS : 1 / 4 ≤ S := by
        by_contra k
        push Not at k
        have := hc k
        rw [abs_of_nonneg (by linarith)] at this
        clear * - this c c' qe se k
        rcases c' with c' | c' <;> norm_num at * <;> linarith
      have hu : |S / ‖r‖ ^ 2 - 1| ≤ 3e-9 := by
        rw [show S / ‖r‖ ^ 2 - 1 = (S - ‖r‖ ^ 2) / ‖r‖ ^ 2 by field_simp, abs_div, abs_of_pos Qp, div_le_iff₀ Qp, abs_le]
        clear * - c c' qe se hS
        rcases c' with c' | c' <;> constructor <;> norm_num at * <;> linarith
      have := close hu (by norm_num)
      have t3 : ‖cval R (r'.smul (PyNum.sqrt (s / q))) - r * (√(S / ‖r‖ ^ 2) : ℂ)‖ ≤ 4.5e-9 := t2.trans (by clear * - sS; generalize √S = y at *; norm_num at *; linarith)
      exact t.trans ((add_le_add t3 this).trans (by norm_num))
  · rw [if_neg (fun k => c' (hiff.1 k)), pure_ok]
    refine ⟨_, rfl, ?_⟩
    have t2 : ‖cval R r' - r‖ ≤ 1.4e-9 := h.err.trans (by clear * - r2; norm_num at *; linarith)
    by_cases c : ‖r‖ ^ 2 < 1 / 4 ∨ ‖r‖ ^ 2 < S
    · rw [if_pos c]
      push Not at c'
      refine ⟨⟨h.re, h.im, ?_⟩, by rw [nrm]; exact sS⟩
      have t := norm_sub_le_norm_sub_add_norm_sub (cval R r') r (r * (√(S / ‖r‖ ^ 2) : ℂ))
      have hS : 1 / 4 ≤ S := by
        by_contra k
        push Not at k
        have := hc k
        have c0 : ‖r‖ ^ 2 < 1 / 4 := by rcases c with c | c <;> linarith
        rw [abs_of_neg (by linarith)] at this
        clear * - this c0 c' qe se k
        norm_num at *; linarith
      have hu : |S / ‖r‖ ^ 2 - 1| ≤ 3e-9 := by
        have c0 : ‖r‖ ^ 2 < S := by rcases c with c | c <;> linarith
        rw [show S / ‖r‖ ^ 2 - 1 = (S - ‖r‖ ^ 2) / ‖r‖ ^ 2 by field_simp, abs_div, abs_of_pos Qp, div_le_iff₀ Qp, abs_le]
        clear * - c0 c' qe se hS S2 Qp
        constructor <;> norm_num at c' qe se ⊢ <;> linarith
      have := close hu (by norm_num)
      rw [norm_sub_rev] at this
      clear * - t t2 this
      norm_num at *
      linarith
    · rw [if_neg c]
      exact ⟨h.mono (by clear * - r2; norm_num at *; linarith), r2⟩

/-- The phase difference. -/
theorem phase_round {q : α} {x : ℝ} (h : RL R q x 1e-14) (x1 : 1e-30 ≤ x) (x2 : x ≤ 1e30) :
    ∃ y, (if 1.57 < q then do pure (3.14 - (← (2.4649 : α) /! q)) else pure q : Py α) = .ok y ∧
      Near R y (if 1.57 < x then 3.14 - 2.4649 / x else x) 1e-13 ∧ |if 1.57 < x then 3.14 - 2.4649 / x else x| ≤ 3.15 := by
  have xp := h.pos
  have he := abs_le.1 h.err
  have l : Near R (1.57 : α) (1.57 : ℝ) 2e-15 := Near.lit R (M := 1.57) (by norm_num) (by norm_num) (by norm_num)
  have le' := abs_le.1 l.err
  have c : RL R (2.4649 : α) (2.4649 : ℝ) 1.5e-15 := RL.lit R (by norm_num) (by norm_num)
  obtain ⟨n1, e1⟩ := c.div h (t := 1.4e-14) (by norm_num) (by norm_num) (by rw [le_div_iff₀ xp]; clear * - x2; norm_num at *; linarith)
    (by rw [div_le_iff₀ xp]; clear * - x1; norm_num at *; linarith) (by norm_num)
  have l3 : Near R (3.14 : α) (3.14 : ℝ) 4e-15 := Near.lit R (M := 3.14) (by norm_num) (by norm_num) (by norm_num)
  have far : 1.5 ≤ x → Near R (3.14 - 2.4649 / q) (3.14 - 2.4649 / x) 4e-14 ∧ 0 < 2.4649 / x ∧ 2.4649 / x ≤ 1.65 := fun hx => by
    have d1 : 2.4649 / x ≤ 1.65 := by rw [div_le_iff₀ xp]; clear * - hx; norm_num at *; linarith
    have d0 : 0 < 2.4649 / x := by positivity
    have n2 : Near R ((2.4649 : α) / q) (2.4649 / x) 2.4e-14 := ⟨n1.fin, n1.err.trans (by clear * - d1; norm_num at *; linarith)⟩
    refine ⟨l3.sub n2 (M := 4) ?_ (by norm_num) (by norm_num), d0, d1⟩
    rw [abs_of_pos (by clear * - d1; generalize 2.4649 / x = y at *; norm_num at *; linarith)]
    clear * - d0; generalize 2.4649 / x = y at *; norm_num at *; linarith
  have same : 1.5 ≤ x → |x - 1.57| ≤ 1e-13 → |3.14 - 2.4649 / x - x| ≤ 1e-14 := fun hx hy => by
    rw [show 3.14 - 2.4649 / x - x = -((x - 1.57) * (x - 1.57)) / x by field_simp; ring, abs_div, abs_neg, abs_mul, abs_of_pos xp, div_le_iff₀ xp]
    have := mul_le_mul hy hy (abs_nonneg _) (by norm_num)
    clear * - this hx
    norm_num at *
    linarith
  have hiff := R.lt _ _ l.fin h.fin
  by_cases c' : R.val (1.57 : α) < R.val q
  · rw [if_pos (hiff.2 c'), e1, ok_bind, pure_ok]
    refine ⟨_, rfl, ?_⟩
    have hx : 1.56 ≤ x := by clear * - c' he le' xp; norm_num at *; linarith
    obtain ⟨f1, f2, f3⟩ := far (hx.trans' (by norm_num))
    by_cases k : 1.57 < x
    · rw [if_pos k]
      refine ⟨f1.mono (by norm_num), ?_⟩
      rw [abs_le]; clear * - f2 f3; generalize 2.4649 / x = y at *; constructor <;> norm_num at * <;> linarith
    · rw [if_neg k]
      push Not at k
      refine ⟨⟨f1.fin, ?_⟩, by rw [abs_of_pos xp]; exact k.trans (by norm_num)⟩
      have s := same (hx.trans' (by norm_num)) (by rw [abs_le]; clear * - k c' he le'; constructor <;> norm_num at * <;> linarith)
      have t := abs_sub_le (R.val (3.14 - 2.4649 / q)) (3.14 - 2.4649 / x) x
      have := f1.err
      clear * - s t this
      norm_num at *
      linarith
  · rw [if_neg (fun k => c' (hiff.1 k)), pure_ok]
    push Not at c'
    refine ⟨_, rfl, ?_⟩
    have hx : x ≤ 1.58 := by clear * - c' he le' xp; norm_num at *; linarith
    have n : Near R q x 2e-14 := ⟨h.fin, h.err.trans (by clear * - hx; norm_num at *; linarith)⟩
    by_cases k : 1.57 < x
    · rw [if_pos k]
      obtain ⟨f1, f2, f3⟩ := far (k.le.trans' (by norm_num))
      refine ⟨⟨h.fin, ?_⟩, by rw [abs_le]; clear * - f2 f3; generalize 2.4649 / x = y at *; constructor <;> norm_num at * <;> linarith⟩
      have s := same (k.le.trans' (by norm_num)) (by rw [abs_le]; clear * - k c' he le'; constructor <;> norm_num at * <;> linarith)
      rw [abs_sub_comm] at s
      have t := abs_sub_le (R.val q) x (3.14 - 2.4649 / x)
      have := n.err
      clear * - s t this
      norm_num at *
      linarith
    · rw [if_neg k]
      exact ⟨n.mono (by norm_num), by rw [abs_of_pos xp]; push Not at k; exact k.trans (by norm_num)⟩

/-- The exponent of the loss by roughness is at most 10. -/
theorem loss_round {w s g : α} {W S G : ℝ} (hw : RL R w W 0) (w1 : 0.01 ≤ W) (w2 : W ≤ 1e4) (hs : RL R s S 6.2e-11) (s1 : 6e-9 ≤ S) (s2 : S ≤ 1e4)
    (hg : RL R g G 1e-14) (g1 : 1e-10 ≤ G) (g2 : G ≤ 1) :
    RL R (PyNum.exp (-(pyMin 10.0 (w * s * g)))) (Real.exp (-min 10 (W * S * G))) 1.3e-9 ∧ 4e-5 ≤ Real.exp (-min 10 (W * S * G)) ∧ Real.exp (-min 10 (W * S * G)) ≤ 1 := by
  have Wp := hw.pos
  have Sp := hs.pos
  have Gp := hg.pos
  have a1 : 6e-11 ≤ W * S := le_trans (by norm_num) (mul_le_mul w1 s1 (by norm_num) Wp.le)
  have a2 : W * S ≤ 1e8 := (mul_le_mul w2 s2 Sp.le (by norm_num)).trans (by norm_num)
  have b1 : 6e-21 ≤ W * S * G := le_trans (by norm_num) (mul_le_mul a1 g1 (by norm_num) (by positivity))
  have b2 : W * S * G ≤ 1e8 := (mul_le_mul a2 g2 Gp.le (by norm_num)).trans (by norm_num)
  have n1 := hw.mul hs (t := 6.21e-11) (by norm_num) (by norm_num) (a1.trans' (by norm_num)) (a2.trans (by norm_num)) (by norm_num)
  have n2 := n1.mul hg (t := 6.3e-11) (by norm_num) (by norm_num) (b1.trans' (by norm_num)) (b2.trans (by norm_num)) (by norm_num)
  have l := Near.lit_int R (m := 100) (s := true) (k := 1) 10 (by norm_num) (by norm_num)
  have l10 : RL R (10.0 : α) 10 6.3e-11 := (RL.of_eq l.1 (l.2.trans (by norm_num)) (by norm_num) (by norm_num)).mono (by norm_num)
  have n3 := RL.min l10 n2 (by norm_num)
  have m10 : min 10 (W * S * G) ≤ 10 := min_le_left _ _
  have m0 : 0 < min 10 (W * S * G) := n3.pos
  have n4 : Near R (-(pyMin 10.0 (w * s * g))) (-min 10 (W * S * G)) 6.4e-10 :=
    Near.neg ⟨n3.fin, n3.err.trans (by clear * - m10; generalize min 10 (W * S * G) = y at *; norm_num at *; linarith)⟩
  have e1 := exp_neg_ge m10
  have e2 : Real.exp (-min 10 (W * S * G)) ≤ 1 := Real.exp_le_one_iff.2 (by linarith)
  exact ⟨RL.exp n4 (by norm_num) (e1.trans' (by norm_num)) (e2.trans (by norm_num)) (by norm_num), e1, e2⟩

theorem trig_cos_near (T : R.Trig) {a : α} {x : ℝ} (h : Near R a x 1e-13) (hx : |x| ≤ 3.15) : Near R (PyNum.cos a) (Real.cos x) 1.1e-13 := by
  have := h.abs_val
  obtain ⟨f, e⟩ := T.cos a h.fin (this.trans (by clear * - hx; norm_num at *; linarith))
  refine ⟨f, ?_⟩
  have t := abs_sub_le (R.val (PyNum.cos a)) (Real.cos (R.val a)) (Real.cos x)
  have k : |Real.cos (R.val a) - Real.cos x| ≤ |R.val a - x| := by
    simpa [Real.dist_eq] using Real.lipschitzWith_cos.dist_le_mul (R.val a) x
  have := h.err
  have := roundEps_le
  clear * - t k this e h
  have := h.err
  norm_num at *
  linarith

theorem trig_sin_near (T : R.Trig) {a : α} {x : ℝ} (h : Near R a x 1e-13) (hx : |x| ≤ 3.15) : Near R (PyNum.sin a) (Real.sin x) 1.1e-13 := by
  have := h.abs_val
  obtain ⟨f, e⟩ := T.sin a h.fin (this.trans (by clear * - hx; norm_num at *; linarith))
  refine ⟨f, ?_⟩
  have t := abs_sub_le (R.val (PyNum.sin a)) (Real.sin (R.val a)) (Real.sin x)
  have k : |Real.sin (R.val a) - Real.sin x| ≤ |R.val a - x| := by
    simpa [Real.dist_eq] using Real.lipschitzWith_sin.dist_le_mul (R.val a) x
  have := h.err
  have := roundEps_le
  clear * - t k this e h
  have := h.err
  norm_num at *
  linarith

/-- The reflection coefficient and the phase, in rounding arithmetic. -/
theorem losRay_round {d : α} {v : LosData α} {p : PropSt α} (hp : v.In p) (hd : R.fin d) (hv : v.All R.fin) (ho : (v.map R.val).Ordinary (R.val d))
    (hr : 1e-3 ≤ ‖(v.map R.val).smooth (R.val d)‖)
    (hj : (v.map R.val).graze (R.val d) < 1 / 4 → 1e-8 ≤ |‖(v.map R.val).rough (R.val d)‖ ^ 2 - 1 / 4|) :
    ∃ r q, alosRay d p = .ok (r, q) ∧ NC R r (effReflection ((v.map R.val).graze (R.val d)) ((v.map R.val).rough (R.val d))) 1e-8 ∧
      ‖effReflection ((v.map R.val).graze (R.val d)) ((v.map R.val).rough (R.val d))‖ ≤ 1 ∧
      Near R q (rayPhase (R.val v.wn) (R.val v.he0) (R.val v.he1) (R.val d)) 1e-13 ∧ |rayPhase (R.val v.wn) (R.val v.he0) (R.val v.he1) (R.val d)| ≤ 3.15 := by
  obtain ⟨p1, p2, p3, p4, p5, p6, -⟩ := hp
  obtain ⟨f1, f2, f3, f4, f5, f6, -⟩ := hv
  obtain ⟨⟨d1, d2⟩, ⟨a1, a2⟩, ⟨b1, b2⟩, ⟨w1, w2⟩, ⟨h1, h2⟩, ⟨z1, z2, z3⟩, -, -⟩ := ho
  simp only [LosData.map] at a1 a2 b1 b2 w1 w2 h1 h2 z1 z2 z3
  rw [← p1] at f1 a1 a2
  rw [← p2] at f2 b1 b2
  rw [← p3] at f3 w1 w2
  rw [← p4] at f4 h1 h2
  rw [← p5] at f5 z1 z2
  rw [← p6] at f6 z3
  obtain ⟨i1, i2, i3⟩ := losIrr_round hd d1 d2 f4 h1 h2
  obtain ⟨pw, s0, s1, s2, s3⟩ := sigma_round i1 i2 i3
  obtain ⟨u, g, u1, u2, g1, g2, g3⟩ := graze_round hd d1 d2 f1 a1 a2 f2 b1 b2
  obtain ⟨c, c1, c2⟩ := reflect_round g1 g3 f5 f6 z1 z2 z3
  have hw : RL R p.wn (R.val p.wn) 0 := RL.self f3 (w1.trans' (by norm_num)) (w2.trans (by norm_num))
  obtain ⟨l1, l2, l3⟩ := loss_round hw w1 w2 s1 s2 s3 g1 g2 g3
  have eg : (v.map R.val).graze (R.val d) = grazing (R.val p.he.x0) (R.val p.he.x1) (R.val d) := by rw [p1, p2]; rfl
  have ez : (v.map R.val).z = cval R p.zgnd := by
    unfold LosData.z cval LosData.map; rw [p5, p6]
  have es : (v.map R.val).smooth (R.val d) = ((grazing (R.val p.he.x0) (R.val p.he.x1) (R.val d) : ℝ) - cval R p.zgnd) / ((grazing (R.val p.he.x0) (R.val p.he.x1) (R.val d) : ℝ) + cval R p.zgnd) := by
    unfold LosData.smooth; rw [eg, ez]
  have er : (v.map R.val).rough (R.val d) = (v.map R.val).smooth (R.val d) *
      ((Real.exp (-min 10 (R.val p.wn * terrainSigma (irregularity (R.val p.dh) (R.val d)) * grazing (R.val p.he.x0) (R.val p.he.x1) (R.val d))) : ℝ) : ℂ) := by
    rw [es]
    unfold LosData.rough reflection
    rw [eg, ez, p3, p4]; rfl
  have n1 : ‖(v.map R.val).smooth (R.val d)‖ ≤ 1 := by
    rw [es, norm_div]
    have hD : 0 < grazing (R.val p.he.x0) (R.val p.he.x1) (R.val d) := lt_of_lt_of_le (by norm_num) g2
    have zp : 0 < R.val p.zgnd.re := lt_of_lt_of_le (by norm_num) z1
    generalize grazing (R.val p.he.x0) (R.val p.he.x1) (R.val d) = G at *
    refine div_le_one_of_le₀ ?_ (norm_nonneg _)
    rw [← sq_le_sq₀ (norm_nonneg _) (norm_nonneg _), ← Complex.normSq_eq_norm_sq, ← Complex.normSq_eq_norm_sq, Complex.normSq_apply, Complex.normSq_apply]
    simp [cval]
    nlinarith
  rw [← es] at c2
  generalize (v.map R.val).smooth (R.val d) = Z at *
  have c3 : NC R c Z (6e-11 * ‖Z‖) := c2.mono (by clear * - hr; norm_num at *; linarith)
  have c4 := c3.smul_rel l1 (g := 1.4e-9) (by norm_num) (by norm_num) (hr.trans' (by norm_num)) (n1.trans (by norm_num)) (l2.trans' (by norm_num)) (l3.trans (by norm_num)) (by norm_num)
  rw [← er] at c4
  have r1 : 4e-8 ≤ ‖(v.map R.val).rough (R.val d)‖ := by
    rw [er, norm_mul, Complex.norm_real, Real.norm_eq_abs, abs_of_pos (Real.exp_pos _)]
    exact le_trans (by norm_num) (mul_le_mul hr l2 (by norm_num) (norm_nonneg _))
  have r2 : ‖(v.map R.val).rough (R.val d)‖ ≤ 1 := by
    rw [er, norm_mul, Complex.norm_real, Real.norm_eq_abs, abs_of_pos (Real.exp_pos _)]
    exact (mul_le_mul n1 l3 (Real.exp_pos _).le zero_le_one).trans (by norm_num)
  rw [eg] at hj
  obtain ⟨x, x1, x2, x3⟩ := eff_round c4 g1 g2 g3 r1 r2 hj
  -- phase
  have ha : RL R p.he.x0 (R.val p.he.x0) 0 := RL.self f1 (a1.trans' (by norm_num)) (a2.trans (by norm_num))
  have hb : RL R p.he.x1 (R.val p.he.x1) 0 := RL.self f2 (b1.trans' (by norm_num)) (b2.trans (by norm_num))
  have hdd : RL R d (R.val d) 0 := RL.self hd (d1.trans' (by norm_num)) (d2.trans (by norm_num))
  have l2' := Near.lit_int R (m := 20) (s := true) (k := 1) 2 (by norm_num) (by norm_num)
  have h2' : RL R (2.0 : α) 2 0 := RL.of_eq l2'.1 (l2'.2.trans (by norm_num)) (by norm_num) (by norm_num)
  have wp := hw.pos
  have ap := ha.pos
  have bp := hb.pos
  have dp := hdd.pos
  have m1 : 1e-4 ≤ R.val p.wn * R.val p.he.x0 := le_trans (by norm_num) (mul_le_mul w1 a1 (by norm_num) wp.le)
  have m2 : R.val p.wn * R.val p.he.x0 ≤ 1e9 := (mul_le_mul w2 a2 ap.le (by norm_num)).trans (by norm_num)
  have m3 : 1e-6 ≤ R.val p.wn * R.val p.he.x0 * R.val p.he.x1 := le_trans (by norm_num) (mul_le_mul m1 b1 (by norm_num) (by positivity))
  have m4 : R.val p.wn * R.val p.he.x0 * R.val p.he.x1 ≤ 1e14 := (mul_le_mul m2 b2 bp.le (by norm_num)).trans (by norm_num)
  have k1 := hw.mul ha (t := 1.5e-15) (by norm_num) (by norm_num) (m1.trans' (by norm_num)) (m2.trans (by norm_num)) (by norm_num)
  have k2 := k1.mul hb (t := 3.1e-15) (by norm_num) (by norm_num) (m3.trans' (by norm_num)) (m4.trans (by norm_num)) (by norm_num)
  have k3 := k2.mul h2' (t := 4.7e-15) (by norm_num) (by norm_num) (by clear * - m3; norm_num at *; linarith) (by clear * - m4; norm_num at *; linarith) (by norm_num)
  have m5 : 1e-14 ≤ R.val p.wn * R.val p.he.x0 * R.val p.he.x1 * 2 / R.val d := by
    rw [le_div_iff₀ dp]; clear * - m3 d2; norm_num at *; linarith
  have m6 : R.val p.wn * R.val p.he.x0 * R.val p.he.x1 * 2 / R.val d ≤ 1e15 := by
    rw [div_le_iff₀ dp]; clear * - m4 d1; norm_num at *; linarith
  obtain ⟨k4, k5⟩ := k3.div hdd (t := 1e-14) (by norm_num) (by norm_num) (m5.trans' (by norm_num)) (m6.trans (by norm_num)) (by norm_num)
  obtain ⟨y, y1, y2, y3⟩ := phase_round k4 (m5.trans' (by norm_num)) (m6.trans (by norm_num))
  refine ⟨x, y, ?_, by rw [eg]; exact x2, by rw [eg]; exact x3, ?_, ?_⟩
  · unfold alosRay
    change (do
      let pw ← pyPow ((1.0 - 0.8 * PyNum.exp (-d / 50e3)) * p.dh / 16.0) (0.25 : α)
      let sq ← mathSqrt (npow d 2 + npow (p.he.x0 + p.he.x1) 2)
      let sps ← (p.he.x0 + p.he.x1) /! sq
      let r ← Cx.div (Cx.sub ⟨sps, 0.0⟩ p.zgnd) (Cx.add ⟨sps, 0.0⟩ p.zgnd)
      let r := r.smul (PyNum.exp (-(pyMin 10.0 (p.wn * (0.78 * ((1.0 - 0.8 * PyNum.exp (-d / 50e3)) * p.dh) * PyNum.exp (-pw)) * sps))))
      let r ← if npow r.abs 2 < 0.25 ∨ npow r.abs 2 < sps then do
          let t ← mathSqrt (← sps /! npow r.abs 2)
          pure (r.smul t)
        else pure r
      let q ← (p.wn * p.he.x0 * p.he.x1 * 2.0) /! d
      let q ← if 1.57 < q then do
          pure (3.14 - (← (2.4649 : α) /! q))
        else pure q
      pure (r, q)) = .ok (x, y)
    rw [s0, ok_bind, u1, ok_bind, u2, ok_bind, c1, ok_bind]
    dsimp only
    generalize c.smul _ = r' at x1 ⊢
    by_cases c1 : npow r'.abs 2 < 0.25 ∨ npow r'.abs 2 < g
    · rw [if_pos c1] at x1 ⊢
      obtain ⟨t0, e0, x1⟩ := bind_eq_ok.1 x1
      obtain ⟨t1, e1, x1⟩ := bind_eq_ok.1 x1
      rw [e0, ok_bind, e1, ok_bind, x1, ok_bind, k5, ok_bind]
      by_cases c2 : 1.57 < p.wn * p.he.x0 * p.he.x1 * 2.0 / d
      · rw [if_pos c2] at y1 ⊢
        obtain ⟨t2, e2, y1⟩ := bind_eq_ok.1 y1
        rw [e2, ok_bind, y1, ok_bind, pure_ok]
      · rw [if_neg c2] at y1 ⊢
        rw [y1, ok_bind, pure_ok]
    · rw [if_neg c1] at x1 ⊢
      rw [x1, ok_bind, k5, ok_bind]
      by_cases c2 : 1.57 < p.wn * p.he.x0 * p.he.x1 * 2.0 / d
      · rw [if_pos c2] at y1 ⊢
        obtain ⟨t2, e2, y1⟩ := bind_eq_ok.1 y1
        rw [e2, ok_bind, y1, ok_bind, pure_ok]
      · rw [if_neg c2] at y1 ⊢
        rw [y1, ok_bind, pure_ok]
  all_goals
    unfold rayPhase
    rw [← p1, ← p2, ← p3, show 2 * R.val p.wn * R.val p.he.x0 * R.val p.he.x1 / R.val d = R.val p.wn * R.val p.he.x0 * R.val p.he.x1 * 2 / R.val d by ring]
    assumption

/-- The two-ray attenuation, in rounding arithmetic. -/
theorem losPlane_round (T : R.Trig) {d : α} {v : LosData α} {p : PropSt α} (hp : v.In p) (hd : R.fin d) (hv : v.All R.fin)
    (ho : (v.map R.val).Ordinary (R.val d)) (hc : (v.map R.val).Clear (R.val d)) :
    ∃ a, alosPlane d p = .ok a ∧ NB R a (-4.343 * Real.log (‖(v.map R.val).field (R.val d)‖ ^ 2)) 435 3.65e-4 := by
  obtain ⟨r, q, e, n1, b1, n2, b2⟩ := losRay_round hp hd hv ho hc.reflects hc.jump
  have hs := hc.sum
  have ef : (v.map R.val).field (R.val d) = Complex.exp (-(rayPhase (R.val v.wn) (R.val v.he0) (R.val v.he1) (R.val d) : ℂ) * Complex.I) +
      effReflection ((v.map R.val).graze (R.val d)) ((v.map R.val).rough (R.val d)) := rfl
  generalize effReflection ((v.map R.val).graze (R.val d)) ((v.map R.val).rough (R.val d)) = r0 at *
  generalize rayPhase (R.val v.wn) (R.val v.he0) (R.val v.he1) (R.val d) = φ at *
  generalize (v.map R.val).field (R.val d) = F at *
  have Fre : F.re = Real.cos φ + r0.re := by
    rw [ef, Complex.add_re, ← Complex.ofReal_neg, Complex.exp_ofReal_mul_I_re, Real.cos_neg]
  have Fim : F.im = -Real.sin φ + r0.im := by
    rw [ef, Complex.add_im, ← Complex.ofReal_neg, Complex.exp_ofReal_mul_I_im, Real.sin_neg]
  have cn := trig_cos_near T n2 b2
  have sn := (trig_sin_near T n2 b2).neg
  have rr : Near R r.re r0.re 1e-8 := ⟨n1.re, le_trans (by simpa [cval] using Complex.abs_re_le_norm (cval R r - r0)) n1.err⟩
  have ri : Near R r.im r0.im 1e-8 := ⟨n1.im, le_trans (by simpa [cval] using Complex.abs_im_le_norm (cval R r - r0)) n1.err⟩
  have a1 : |r0.re| ≤ 1 := (Complex.abs_re_le_norm _).trans b1
  have a2 : |r0.im| ≤ 1 := (Complex.abs_im_le_norm _).trans b1
  have a3 := Real.abs_cos_le_one φ
  have a4 : |-Real.sin φ| ≤ 1 := by rw [abs_neg]; exact Real.abs_sin_le_one φ
  have c1 := (NB.mk cn a3).add (NB.mk rr a1) (Z := 2) (g := 1.001e-8) (by norm_num) (by norm_num) (by norm_num)
  have c2 := (NB.mk sn a4).add (NB.mk ri a2) (Z := 2) (g := 1.001e-8) (by norm_num) (by norm_num) (by norm_num)
  rw [← Fre] at c1
  rw [← Fim] at c2
  have F2 : ‖F‖ ≤ 4 := (Complex.norm_le_abs_re_add_abs_im _).trans ((add_le_add c1.bound c2.bound).trans (by norm_num))
  have c3 : NC R (Cx.add ⟨PyNum.cos q, -(PyNum.sin q)⟩ r) F (2.01e-5 * ‖F‖) :=
    NC.of_near c1.toNear c2.toNear (by clear * - hs; norm_num at *; linarith)
  have c4 := c3.absq (g := 4.1e-5) (by norm_num) (hs.trans' (by norm_num)) (F2.trans (by norm_num)) (by norm_num)
  obtain ⟨e5, c5⟩ := Props.RL.log c4 (g := 8.3e-5) (by norm_num) (by norm_num)
  have l := (NB.lit R (m := 4343) (s := true) (k := 3) (X := 4.343) (g := 5e-15) (by norm_num) (by norm_num) (by norm_num)).neg
  refine ⟨_, ?_, l.mul c5 (by norm_num) (by norm_num) (by norm_num)⟩
  unfold alosPlane
  rw [e, ok_bind]
  dsimp only
  rw [e5, ok_bind, pure_ok]

theorem alos_round (T : R.Trig) {d : α} {v : LosData α} {p : PropSt α} (hp : v.In p) (hd : R.fin d) (hv : v.All R.fin)
    (ho : (v.map R.val).Ordinary (R.val d)) (hc : (v.map R.val).Clear (R.val d)) :
    ∃ a, alos d p = .ok a ∧ Near R a ((v.map R.val).att (R.val d)) 5e-4 := by
  obtain ⟨pl, e, n⟩ := losPlane_round T hp hd hv ho hc
  obtain ⟨-, -, -, -, -, -, l, hl, l1, l2, l3⟩ := hp
  obtain ⟨-, -, -, -, -, -, f1, f2, f3⟩ := hv
  obtain ⟨⟨d1, d2⟩, -, -, -, -, -, ⟨a1, a2⟩, ⟨w1, w2⟩⟩ := ho
  have k1 : NB R l.aed (R.val v.aed) 1e4 0 := by rw [l1]; exact NB.self f1 a1
  have k2 : NB R l.emd (R.val v.emd) 1e-2 0 := by rw [l2]; exact NB.self f2 a2
  have k3 : NB R l.wis (R.val v.wis) 1 0 := by rw [l3]; exact NB.self f3 (abs_le.2 ⟨le_trans (by norm_num) w1, w2⟩)
  have k4 : NB R d (R.val d) 1e7 0 := NB.self hd (abs_le.2 ⟨le_trans (by norm_num) d1, d2⟩)
  have m1 := k2.mul k4 (Z := 1e5) (g := 1.1e-10) (by norm_num) (by norm_num) (by norm_num)
  have m2 := m1.add k1 (Z := 1.1e5) (g := 2.3e-10) (by norm_num) (by norm_num) (by norm_num)
  have m3 := n.sub m2 (Z := 1.2e5) (g := 3.66e-4) (by norm_num) (by norm_num) (by norm_num)
  have m4 := m3.mul k3 (Z := 1.2e5) (g := 3.67e-4) (by norm_num) (by norm_num) (by norm_num)
  have m5 := m4.add m2 (Z := 2.3e5) (g := 5e-4) (by norm_num) (by norm_num) (by norm_num)
  refine ⟨(pl - (l.emd * d + l.aed)) * l.wis + (l.emd * d + l.aed), ?_, ?_⟩
  · unfold alos alosExt
    rw [hl, e]
    rfl
  · have t := m5.toNear
    unfold LosData.att
    dsimp only [LosData.map] at t ⊢
    convert t using 1
    ring

/-- The value of the formulas is what exact arithmetic returns. -/
theorem alos_exact {d : ℝ} {v : LosData ℝ} {p : PropSt ℝ} (hp : v.In p) (ho : v.Ordinary d) (hc : v.Clear d) : alos d p = .ok (v.att d) := by
  obtain ⟨p1, p2, p3, p4, p5, p6, l, hl, l1, l2, l3⟩ := hp
  obtain ⟨⟨d1, d2⟩, ⟨a1, a2⟩, ⟨b1, b2⟩, ⟨w1, w2⟩, ⟨h1, h2⟩, ⟨z1, z2, z3⟩, -, -⟩ := ho
  have hne : ¬ (p.zgnd.re = spsR p.he d ∧ p.zgnd.im = 0) := by
    rintro ⟨e1, e2⟩
    have hr := hc.reflects
    have : v.smooth d = 0 := by
      unfold LosData.smooth
      rw [div_eq_zero_iff]
      left
      have eg : v.graze d = spsR p.he d := by unfold LosData.graze grazing spsR; rw [p1, p2]
      rw [eg, sub_eq_zero]
      unfold LosData.z
      rw [← p5, ← p6, e1, e2]
      rfl
    rw [this, norm_zero] at hr
    norm_num at hr
  obtain ⟨pl, -, e⟩ := alos_ok hl (p1 ▸ lt_of_lt_of_le (by norm_num) a1) (p2 ▸ lt_of_lt_of_le (by norm_num) b1) (p3 ▸ lt_of_lt_of_le (by norm_num) w1)
    (p4 ▸ le_trans (by norm_num) h1) (p5 ▸ lt_of_lt_of_le (by norm_num) z1) (lt_of_lt_of_le (by norm_num) d1) hne
  have h := Props.alos_value hl e
  rw [e, h]
  have ez : p.zgnd.toC = v.z := by unfold LosData.z; rw [← p5, ← p6]; rfl
  rw [p1, p2, p3, p4, ez, l1, l2, l3]
  rfl

/-- Accuracy of the library functions on doubles is accuracy of the rounding arithmetic of doubles. -/
theorem ieee_trig {M : Libm} (h : M.Accurate) (t : M.Trig) : (ieee h).Trig := ⟨fun a => t.sin a, fun a => t.cos a⟩

end Itm
