import Verif.Lemmas.ClimRound

/-! Frequency gains, extended distance and location deviation in rounding arithmetic. -/

namespace Itm.Props
open Itm Spec
variable {α : Type} [PyNum α] {R : Rounding α}

theorem log_gain {w : ℝ} (h1 : 0.01 ≤ w) (h2 : w ≤ 1e4) : |Real.log (0.133 * w)| ≤ 8 := by
  have e1 : (2.7182818283 : ℝ) ≤ Real.exp 1 := by have := Real.exp_one_gt_d9; norm_num at *; linarith
  have e8 : (2.7182818283 : ℝ) ^ 8 ≤ Real.exp 8 := by
    rw [show (8 : ℝ) = (8 : ℕ) * 1 by norm_num, Real.exp_nat_mul]
    exact pow_le_pow_left₀ (by norm_num) e1 8
  have hp : 0 < 0.133 * w := by norm_num at *; linarith
  rw [abs_le]
  constructor
  · rw [Real.le_log_iff_exp_le hp, Real.exp_neg]
    calc (Real.exp 8)⁻¹ ≤ ((2.7182818283 : ℝ) ^ 8)⁻¹ := inv_anti₀ (by norm_num) e8
      _ ≤ 0.133 * w := by norm_num at *; linarith
  · rw [Real.log_le_iff_le_exp hp]
    refine le_trans ?_ e8
    norm_num at *
    linarith

theorem gain_term {c1 c2 c3 q : α} {c1' c2' c3' q' : ℝ} (h1 : NB R c1 c1' 1 2e-15) (h2 : NB R c2 c2' 0.31 1e-15) (h3 : NB R c3 c3' 2 3e-15)
    (h2n : 0 ≤ c2') (hq : NB R q q' 8 3e-14) :
    c2 /! (npow (c3 * q) 2 + 1.0) = .ok (c2 / (npow (c3 * q) 2 + 1.0)) ∧
    NB R (c1 + c2 / (npow (c3 * q) 2 + 1.0)) (c1' + c2' / ((c3' * q') ^ 2 + 1)) 1.31 4e-12 := by
  have hm : NB R (c3 * q) (c3' * q') 16 2e-13 := h3.mul hq (by norm_num) (by norm_num) (by norm_num)
  have hs : NB R (npow (c3 * q) 2) ((c3' * q') ^ 2) 256 8e-12 := hm.sq (by norm_num) (by norm_num) (by norm_num)
  have hone : NB R (1.0 : α) (1.0 : ℝ) 1 2e-15 := NB.lit R (by norm_num) (by norm_num) (by norm_num)
  have hd : NB R (npow (c3 * q) 2 + 1.0) ((c3' * q') ^ 2 + 1.0) 257 9e-12 := hs.add hone (by norm_num) (by norm_num) (by norm_num)
  have e : (1.0 : ℝ) = 1 := by norm_num
  rw [e] at hd
  have hq : |c2' / ((c3' * q') ^ 2 + 1)| ≤ 0.31 := by
    have := h2.bound
    rw [abs_of_nonneg h2n] at this
    rw [abs_of_nonneg (by positivity)]
    exact (div_le_self h2n (by nlinarith [sq_nonneg (c3' * q')])).trans this
  obtain ⟨h4, h5⟩ := h2.toNear.div hd.toNear (m := 1) (M := 1) (g := 3e-12) hq
    (by rw [abs_of_pos (by positivity)]; nlinarith [sq_nonneg (c3' * q')]) (by norm_num) (by norm_num) (by norm_num) (by norm_num)
  refine ⟨pyDiv_round hd.fin h5, ?_⟩
  exact h1.add (⟨h4, hq⟩ : NB R _ _ 0.31 _) (by norm_num) (by norm_num) (by norm_num)

/-- The gains at every frequency between about half a megahertz and 477 GHz. -/
theorem freqGain_round {c : Climate α} {c' : Climate ℝ} (hc : ClimNear R c c') {wn : α} (hw : R.fin wn) (h1 : 0.01 ≤ R.val wn)
    (h2 : R.val wn ≤ 1e4) :
    ∃ g g', freqGain c wn = .ok g ∧ freqGain c' (R.val wn) = .ok g' ∧ NB R g.gm g'.gm 1.31 4e-12 ∧ NB R g.gp g'.gp 1.31 4e-12 ∧
      0.9 ≤ g'.gm ∧ 0.9 ≤ g'.gp := by
  have hl := log_gain h1 h2
  have hp : 0 < 0.133 * R.val wn := by norm_num at *; linarith
  have hm : NR R (0.133 * wn) (0.133 * R.val wn) 1330 3e-15 1e-90 :=
    (NR.lit R (X := 0.133) (by norm_num) (by norm_num)).mul (NR.self hw (X := 1e4) (by rw [abs_of_pos (by norm_num at *; linarith)]; exact h2)) (by norm_num)
      (by norm_num) (by norm_num) (by norm_num) (by norm_num) (by norm_num) (by norm_num) (by norm_num)
  have hq : NB R (PyNum.log (0.133 * wn)) (Real.log (0.133 * R.val wn)) 8 3e-14 ∧ 0 < R.val (0.133 * wn) := by
    have hn : Near R (0.133 * wn) (0.133 * R.val wn) (4e-15 * (0.133 * R.val wn)) := by
      refine ⟨hm.fin, hm.err.trans ?_⟩
      rw [abs_of_pos hp]
      norm_num at *
      linarith
    have e : 4e-15 * (0.133 * R.val wn) / (0.133 * R.val wn - 4e-15 * (0.133 * R.val wn)) ≤ 5e-15 := by
      have : 0 < 0.133 * R.val wn - 4e-15 * (0.133 * R.val wn) := by norm_num at *; linarith
      rw [div_le_iff₀ this]
      norm_num at *
      linarith
    obtain ⟨h3, h4⟩ := hn.log (m := 0.133 * R.val wn) (M := 9) (g := 3e-14) le_rfl (by norm_num at *; linarith)
      (by norm_num at *; linarith) (by norm_num at *; linarith)
    exact ⟨⟨h3, hl⟩, h4⟩
  obtain ⟨hq, hqp⟩ := hq
  obtain ⟨d1, n1⟩ := gain_term hc.cfm1 hc.cfm2 hc.cfm3 hc.cfm2n hq
  obtain ⟨d2, n2⟩ := gain_term hc.cfp1 hc.cfp2 hc.cfp3 hc.cfp2n hq
  refine ⟨⟨_, _⟩, ⟨_, _⟩, ?_, ?_, n1, n2, ?_, ?_⟩
  · unfold freqGain
    rw [npLog_round hm.fin hqp, ok_bind, d1, ok_bind, d2, ok_bind, pure_ok]
  · unfold freqGain
    simp only [npow_real]
    have e : (1.0 : ℝ) = 1 := by norm_num
    rw [npLog_ok hp, ok_bind, e, pyDiv_ok (by positivity), ok_bind, pyDiv_ok (by positivity), ok_bind, pure_ok]
  · have := hc.cfm1n
    have h0 := hc.cfm2n
    have : 0 ≤ c'.cfm2 / ((c'.cfm3 * Real.log (0.133 * R.val wn)) ^ 2 + 1) := by positivity
    change (0.9 : ℝ) ≤ _ + _
    linarith
  · have := hc.cfp1n
    have h0 := hc.cfp2n
    have : 0 ≤ c'.cfp2 / ((c'.cfp3 * Real.log (0.133 * R.val wn)) ^ 2 + 1) := by positivity
    change (0.9 : ℝ) ≤ _ + _
    linarith

/-- The cube root by `**`. -/
theorem rpow_third {a : α} {x : ℝ} (ha : R.fin a) (h1 : 1e10 ≤ x) (h2 : x ≤ 1e17) (he : |R.val a - x| ≤ 4e-15 * x) :
    0 < R.val a ∧ NP R (PyNum.rpow a third) (x ^ (1 / 3 : ℝ)) 5e5 6e-14 1e-90 := by
  have hx : 0 < x := lt_of_lt_of_le (by norm_num) h1
  have hv : (1 - 4e-15) * x ≤ R.val a ∧ R.val a ≤ (1 + 4e-15) * x := by
    have := abs_le.1 he; constructor <;> linarith [this.1, this.2]
  have hva : 0 < R.val a := lt_of_lt_of_le (by norm_num at *; linarith) hv.1
  -- exponent
  have o1 := Near.lit_int R (m := 10) (s := true) (k := 1) 1 (by norm_num) (by norm_num)
  have o3 := Near.lit_int R (m := 30) (s := true) (k := 1) 3 (by norm_num) (by norm_num)
  have v1 : R.val (1.0 : α) = 1 := by rw [o1.2]; norm_num
  have v3 : R.val (3.0 : α) = 3 := by rw [o3.2]; norm_num
  obtain ⟨ft, vt⟩ := R.div (1.0 : α) 3.0 o1.1 o3.1 (by rw [v3]; norm_num) (by rw [v1, v3]; exact le_roundBig (by rw [abs_of_pos] <;> norm_num))
  rw [v1, v3] at vt
  have ht : |R.val (third : α) - 1 / 3| ≤ 4e-16 := by
    change |R.val ((1.0 : α) / 3.0) - 1 / 3| ≤ 4e-16
    rw [vt]
    refine (Near.rnd_err R (M := 1 / 3) (by rw [abs_of_pos (by norm_num)]) (by norm_num)).trans (by norm_num)
  change R.fin (third : α) at ft
  generalize (third : α) = t at *
  clear vt v1 v3 o1 o3
  -- logarithms
  have hlx0 : 0 ≤ Real.log x := Real.log_nonneg (le_trans (by norm_num) h1)
  have e1 : (2.7182818283 : ℝ) ≤ Real.exp 1 := by have := Real.exp_one_gt_d9; norm_num at *; linarith
  have hlx : Real.log x ≤ 40 := by
    rw [Real.log_le_iff_le_exp hx]
    refine h2.trans ?_
    rw [show (40 : ℝ) = (40 : ℕ) * 1 by norm_num, Real.exp_nat_mul]
    exact le_trans (by norm_num) (pow_le_pow_left₀ (by norm_num) e1 40)
  have hld : |Real.log (R.val a) - Real.log x| ≤ 5e-15 := by
    rw [← Real.log_div hva.ne' hx.ne', abs_le]
    have hb : 1 - 4e-15 ≤ R.val a / x ∧ R.val a / x ≤ 1 + 4e-15 := by
      rw [le_div_iff₀ hx, div_le_iff₀ hx]; exact hv
    constructor
    · have h3 := Real.one_sub_inv_le_log_of_pos (div_pos hva hx)
      have h4 : (R.val a / x)⁻¹ ≤ 1 + 5e-15 := by
        refine (inv_anti₀ (by norm_num) hb.1).trans (by norm_num)
      linarith
    · have h3 := Real.log_le_sub_one_of_pos (div_pos hva hx)
      linarith [hb.2]
  have hdelta : |R.val t * Real.log (R.val a) - Real.log x / 3| ≤ 2.2e-14 := by
    rw [show R.val t * Real.log (R.val a) - Real.log x / 3 =
      (R.val t - 1 / 3) * Real.log (R.val a) + (Real.log (R.val a) - Real.log x) / 3 by ring]
    have hla : |Real.log (R.val a)| ≤ 41 := by
      have := abs_le.1 hld
      rw [abs_le]
      constructor <;> norm_num at * <;> linarith [this.1, this.2]
    refine (abs_add_le _ _).trans ?_
    rw [abs_mul, abs_div, abs_of_pos (by norm_num : (0 : ℝ) < 3)]
    have h5 : |R.val t - 1 / 3| * |Real.log (R.val a)| ≤ 4e-16 * 41 := mul_le_mul ht hla (abs_nonneg _) (by norm_num)
    have h6 : |Real.log (R.val a) - Real.log x| / 3 ≤ 5e-15 / 3 := by gcongr
    refine (add_le_add h5 h6).trans (by norm_num)
  have ex : x ^ (1 / 3 : ℝ) = Real.exp (Real.log x / 3) := by rw [Real.rpow_def_of_pos hx]; congr 1; ring
  have ea : R.val a ^ R.val t = Real.exp (R.val t * Real.log (R.val a)) := by rw [Real.rpow_def_of_pos hva]; congr 1; ring
  have hpow : |R.val a ^ R.val t - x ^ (1 / 3 : ℝ)| ≤ 4.4e-14 * x ^ (1 / 3 : ℝ) := by
    rw [ea, ex]
    have e2 : Real.exp (R.val t * Real.log (R.val a)) - Real.exp (Real.log x / 3) =
        Real.exp (Real.log x / 3) * (Real.exp (R.val t * Real.log (R.val a) - Real.log x / 3) - 1) := by
      rw [mul_sub, ← Real.exp_add, mul_one]; congr 2; ring
    rw [e2, abs_mul, abs_of_pos (Real.exp_pos _), mul_comm]
    refine mul_le_mul_of_nonneg_right ?_ (Real.exp_pos _).le
    refine (Real.abs_exp_sub_one_le (hdelta.trans (by norm_num))).trans ?_
    norm_num at *
    linarith
  have hxb : x ^ (1 / 3 : ℝ) ≤ 5e5 := by
    have : x ^ (1 / 3 : ℝ) ≤ (1.25e17 : ℝ) ^ (1 / 3 : ℝ) := Real.rpow_le_rpow hx.le (h2.trans (by norm_num)) (by norm_num)
    refine this.trans ?_
    rw [show (1.25e17 : ℝ) = (5e5 : ℝ) ^ (3 : ℝ) by norm_num, ← Real.rpow_mul (by norm_num)]
    norm_num
  have hx0 : 0 ≤ x ^ (1 / 3 : ℝ) := Real.rpow_nonneg hx.le _
  have hx1 : 1 ≤ x ^ (1 / 3 : ℝ) := Real.one_le_rpow (le_trans (by norm_num) h1) (by norm_num)
  generalize x ^ (1 / 3 : ℝ) = y at *
  have hyb : R.val a ^ R.val t ≤ 2 * y := by have := (abs_le.1 hpow).2; norm_num at *; linarith
  obtain ⟨f, hr⟩ := R.rpow a t ha ft hva (le_roundBig (hyb.trans (by norm_num at *; linarith)))
  have hp0 := Real.rpow_nonneg hva.le (R.val t)
  have h7 : roundEps * R.val a ^ R.val t ≤ 1e-15 * (2 * y) := mul_le_mul roundEps_le hyb hp0 (by norm_num)
  have h8 := roundTiny_le
  have herr : |R.val (PyNum.rpow a t) - y| ≤ 6e-14 * y := by
    have h9 := abs_sub_le (R.val (PyNum.rpow a t)) (R.val a ^ R.val t) y
    norm_num at *
    linarith
  refine ⟨hva, ⟨f, ?_, ?_⟩, hx0, ?_⟩
  · rw [abs_of_nonneg hx0]; norm_num at *; linarith
  · rw [abs_of_nonneg hx0]; exact hxb
  · have := (abs_le.1 herr).1; norm_num at *; linarith

/-- One term `√(18e6 h)` of the extended distance. -/
theorem dexa_term {h : α} (hf : R.fin h) (h0 : 0 ≤ R.val h) (h1 : R.val h ≤ 1e4) :
    mathSqrt (18e6 * h) = .ok (PyNum.sqrt (18e6 * h)) ∧ NP R (PyNum.sqrt (18e6 * h)) (√(18e6 * R.val h)) 4.3e5 5e-15 1e-40 := by
  have hm : NR R (18e6 * h) (18e6 * R.val h) 1.8e11 3e-15 1e-90 :=
    (NR.lit R (X := 18e6) (by norm_num) (by norm_num)).mul (NR.self hf (X := 1e4) (by rw [abs_of_nonneg h0]; exact h1)) (by norm_num)
      (by norm_num) (by norm_num) (by norm_num) (by norm_num) (by norm_num) (by norm_num) (by norm_num)
  have hl := Near.lit_int R (m := 18) (s := false) (k := 6) 18000000 (by norm_num) (by norm_num)
  have hvl : R.val (18e6 : α) = 18e6 := hl.2
  have hnn : 0 ≤ R.val (18e6 * h) := by
    have hb : |R.val (18e6 : α) * R.val h| ≤ roundBig := by
      rw [hvl, abs_of_nonneg (by positivity)]
      exact le_roundBig (by norm_num at *; linarith)
    rw [(R.mul _ _ hl.1 hf hb).2, hvl]
    exact rnd_nonneg R (by positivity)
  have hp : NP R (18e6 * h) (18e6 * R.val h) 1.8e11 3e-15 1e-90 := ⟨hm, by positivity, hnn⟩
  obtain ⟨e, hs⟩ := hp.sqrt (w := 1e-45) (Z := 4.3e5) (r' := 5e-15) (t' := 1e-40) (by norm_num) (by norm_num) (by norm_num) (by norm_num)
    (by norm_num) (by norm_num) (by norm_num) (by norm_num)
  refine ⟨e, hs, Real.sqrt_nonneg _, ?_⟩
  rw [(R.sqrt _ hm.fin hnn).2]
  exact rnd_nonneg R (Real.sqrt_nonneg _)

/-- The extended distance. -/
theorem dexa_round {he : Pair α} {he' : Pair ℝ} {wn : α} (hw : R.fin wn) (h1 : 0.01 ≤ R.val wn) (h2 : R.val wn ≤ 1e4)
    (f0 : R.fin he.x0) (f1 : R.fin he.x1) (e0 : he'.x0 = R.val he.x0) (e1 : he'.x1 = R.val he.x1)
    (b0 : 0 ≤ R.val he.x0 ∧ R.val he.x0 ≤ 1e4) (b1 : 0 ≤ R.val he.x1 ∧ R.val he.x1 ≤ 1e4) :
    ∃ x x', dexaOf he wn = .ok x ∧ dexaOf he' (R.val wn) = .ok x' ∧ R.fin x ∧ 3.8e3 ≤ x' ∧ x' ≤ 1.4e6 ∧
      |R.val x - x'| ≤ 7e-14 * x' := by
  obtain ⟨s0, n0⟩ := dexa_term f0 b0.1 b0.2
  obtain ⟨s1, n1⟩ := dexa_term f1 b1.1 b1.2
  have hwp : 0 < R.val wn := by norm_num at *; linarith
  have hq1 : (5.7e10 : ℝ) ≤ 575.7e12 / R.val wn := by rw [le_div_iff₀ hwp]; norm_num at *; linarith
  have hq2 : 575.7e12 / R.val wn ≤ (6e16 : ℝ) := by rw [div_le_iff₀ hwp]; norm_num at *; linarith
  have hl : NR R (575.7e12 : α) (575.7e12 : ℝ) 575.7e12 1e-15 1e-100 := NR.lit R (by norm_num) (by norm_num)
  obtain ⟨hd, hd'⟩ := hl.div (NR.self hw (X := 1e4) (by rw [abs_of_pos hwp]; exact h2)) (m := 0.01) (w := 0) (Z := 6e16) (r' := 3e-15) (t' := 1e-90)
    (by norm_num) h1 (by norm_num) (by norm_num) (by norm_num) (by norm_num) (by norm_num) (by norm_num) (by norm_num) (by norm_num)
    (by norm_num) (by norm_num)
  have hde : |R.val (575.7e12 / wn) - 575.7e12 / R.val wn| ≤ 4e-15 * (575.7e12 / R.val wn) := by
    refine hd.err.trans ?_
    rw [abs_of_pos (lt_of_lt_of_le (by norm_num) hq1)]
    generalize (575.7e12 : ℝ) / R.val wn = q at *
    norm_num at *
    linarith
  obtain ⟨hqp, n2⟩ := rpow_third hd.fin (le_trans (by norm_num) hq1) (hq2.trans (by norm_num)) hde
  have hcb : (3.8e3 : ℝ) ≤ (575.7e12 / R.val wn) ^ (1 / 3 : ℝ) := by
    have : (5.4872e10 : ℝ) ^ (1 / 3 : ℝ) ≤ (575.7e12 / R.val wn) ^ (1 / 3 : ℝ) :=
      Real.rpow_le_rpow (by norm_num) (le_trans (by norm_num) hq1) (by norm_num)
    refine le_trans ?_ this
    rw [show (5.4872e10 : ℝ) = (3.8e3 : ℝ) ^ (3 : ℝ) by norm_num, ← Real.rpow_mul (by norm_num)]
    norm_num
  have hs := n0.add n1 (Z := 8.6e5) (r' := 7e-15) (t' := 3e-40) (by norm_num) (by norm_num) (by norm_num) (by norm_num) (by norm_num) (by norm_num)
    (by norm_num) (by norm_num)
  have ht := (hs.mono (r' := 6e-14) (t' := 3e-40) (by norm_num) le_rfl).add n2 (Z := 1.4e6) (r' := 6.2e-14) (t' := 4e-40) (by norm_num)
    (by norm_num) (by norm_num) (by norm_num) (by norm_num) (by norm_num) (by norm_num) (by norm_num)
  refine ⟨_, √(18e6 * R.val he.x0) + √(18e6 * R.val he.x1) + (575.7e12 / R.val wn) ^ (1 / 3 : ℝ), ?_, ?_, ht.fin, ?_, ?_, ?_⟩
  · unfold dexaOf
    rw [s0, ok_bind, s1, ok_bind, pyDiv_round hw hd'.ne', ok_bind]
    unfold pyPow
    have fz := fin_zero (α := α) R
    rw [if_neg (by rw [R.lt _ _ hd.fin fz.1, fz.2]; linarith), if_neg ?_, ok_bind, pure_ok]
    rintro ⟨h, -⟩
    rw [pyEq_round hd.fin fz.1, fz.2] at h
    linarith
  · unfold dexaOf
    rw [e0, e1, mathSqrt_ok (by have := b0.1; positivity), ok_bind, mathSqrt_ok (by have := b1.1; positivity), ok_bind, pyDiv_ok hwp.ne',
      ok_bind, pyPow_ok (by positivity) (by rintro ⟨_, h⟩; linarith [third_pos]), ok_bind, pure_ok]
    congr 2
    unfold third
    norm_num
  · have := Real.sqrt_nonneg (18e6 * R.val he.x0)
    have := Real.sqrt_nonneg (18e6 * R.val he.x1)
    linarith
  · have := ht.bound
    rw [abs_of_nonneg ht.xnn] at this
    exact this
  · have h3 : 1 ≤ √(18e6 * R.val he.x0) + √(18e6 * R.val he.x1) + (575.7e12 / R.val wn) ^ (1 / 3 : ℝ) := by
      have := Real.sqrt_nonneg (18e6 * R.val he.x0)
      have := Real.sqrt_nonneg (18e6 * R.val he.x1)
      have : (1 : ℝ) ≤ 3.8e3 := by norm_num
      linarith
    refine ht.err.trans ?_
    rw [abs_of_nonneg ht.xnn]
    generalize √(18e6 * R.val he.x0) + √(18e6 * R.val he.x1) + (575.7e12 / R.val wn) ^ (1 / 3 : ℝ) = X at *
    norm_num at *
    linarith

end Itm.Props
