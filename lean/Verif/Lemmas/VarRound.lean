import Verif.Lemmas.GainRound

/-! Effective distance, location deviation and the whole set of coefficients in rounding arithmetic. -/

namespace Itm.Props
open Itm Spec
variable {α : Type} [PyNum α] {R : Rounding α}

/-- The effective distance as a function of the extended distance. -/
noncomputable def effR (d x : ℝ) : ℝ := if d < x then 130e3 * d / x else 130e3 + d - x

theorem effDist_real {d x : ℝ} (hx : 0 < x) : effDist d x = .ok (effR d x) := by
  unfold effDist effR
  split_ifs
  · rw [pyDiv_ok hx.ne']
  · rfl

theorem effR_lip {d x y δ : ℝ} (hd : 0 < d) (hx : 0 < x) (hδ : 0 ≤ δ) (hxy : x ≤ y) (h : y - x ≤ δ * x) :
    |effR d x - effR d y| ≤ 130e3 * δ + (y - x) := by
  have hy : 0 < y := by linarith
  have hδy : y - x ≤ δ * y := h.trans (mul_le_mul_of_nonneg_left hxy hδ)
  unfold effR
  split_ifs with h1 h2 h2
  · have e : 130e3 * d / x - 130e3 * d / y = 130e3 * (d / x) * ((y - x) / y) := by field_simp
    have h3 : d / x ≤ 1 := by rw [div_le_one hx]; exact h1.le
    have h4 : (y - x) / y ≤ δ := by rw [div_le_iff₀ hy]; exact hδy
    have h5 : 0 ≤ (y - x) / y := div_nonneg (by linarith) hy.le
    have h6 : 0 ≤ d / x := by positivity
    rw [e, abs_of_nonneg (by positivity)]
    have h7 : 130e3 * (d / x) ≤ (130e3 : ℝ) := by
      calc 130e3 * (d / x) ≤ (130e3 : ℝ) * 1 := mul_le_mul_of_nonneg_left h3 (by norm_num)
        _ = 130e3 := mul_one _
    have := mul_le_mul h7 h4 h5 (by norm_num)
    linarith
  · exact absurd (h1.trans_le hxy) h2
  · push Not at h1
    have e : 130e3 + d - x - 130e3 * d / y = 130e3 * ((y - d) / y) + (d - x) := by field_simp; ring
    have h3 : 0 ≤ (y - d) / y := div_nonneg (by linarith) hy.le
    have h4 : (y - d) / y ≤ δ := by rw [div_le_iff₀ hy]; linarith
    rw [e, abs_of_nonneg (by have : 0 ≤ d - x := by linarith
                             positivity)]
    have := mul_le_mul_of_nonneg_left h4 (by norm_num : (0 : ℝ) ≤ 130e3)
    linarith
  · rw [show 130e3 + d - x - (130e3 + d - y) = y - x by ring, abs_of_nonneg (by linarith)]
    have : 0 ≤ 130e3 * δ := by positivity
    linarith

theorem effDist_round {dist x : α} {x' : ℝ} (hd : R.fin dist) (h1 : 1e3 ≤ R.val dist) (h2 : R.val dist ≤ 1e7) (hx : R.fin x)
    (h3 : 3.8e3 ≤ x') (h4 : x' ≤ 1.4e6) (he : |R.val x - x'| ≤ 7e-14 * x') :
    ∃ de d', effDist dist x = .ok de ∧ effDist (R.val dist) x' = .ok d' ∧ NB R de d' 1.1e7 2e-7 ∧ 90 ≤ d' := by
  have hx' : 0 < x' := lt_of_lt_of_le (by norm_num) h3
  have he' := abs_le.1 he
  have hvx : 0 < R.val x := by have := he'.1; norm_num at *; linarith
  have hvl : 3.7e3 ≤ R.val x := by have := he'.1; norm_num at *; linarith
  have hvu : R.val x ≤ 1.5e6 := by have := he'.2; norm_num at *; linarith
  have hdp : 0 < R.val dist := lt_of_lt_of_le (by norm_num) h1
  -- the formula on the rounded extended distance
  have key : ∃ de, effDist dist x = .ok de ∧ Near R de (effR (R.val dist) (R.val x)) 6e-8 := by
    unfold effDist effR
    simp only [R.lt dist x hd hx]
    have hd' : NB R dist (R.val dist) 1e7 0 := NB.self hd (by rw [abs_of_pos hdp]; exact h2)
    have hc : NB R (130e3 : α) (130e3 : ℝ) 130e3 0 := by
      have := Near.lit_int R (m := 130) (s := false) (k := 3) 130000 (by norm_num) (by norm_num)
      exact ⟨Near.of_eq this.1 this.2, by norm_num⟩
    split_ifs with h
    · have hm : NB R (130e3 * dist) (130e3 * R.val dist) 1.3e12 1.4e-3 := hc.mul hd' (by norm_num) (by norm_num) (by norm_num)
      refine ⟨_, pyDiv_round hx hvx.ne', ?_⟩
      have hm' : NR R (130e3 * dist) (130e3 * R.val dist) 1.3e12 2e-15 1e-80 :=
        (NR.of_eq hc.fin (by have := hc.err; rw [abs_nonpos_iff, sub_eq_zero] at this; exact this) hc.bound : NR R (130e3 : α) (130e3 : ℝ) 130e3 0 0).mul
          (NR.self hd hd'.bound) (by norm_num) (by norm_num) (by norm_num) (by norm_num) (by norm_num) (by norm_num) (by norm_num) (by norm_num)
      obtain ⟨hq, -⟩ := hm'.div (NR.self hx (X := 1.5e6) (by rw [abs_of_pos hvx]; exact hvu)) (m := 3.7e3) (w := 0) (Z := 1e9) (r' := 4e-15) (t' := 1e-70)
        (by norm_num) hvl (by norm_num) (by norm_num) (by norm_num) (by norm_num) (by norm_num) (by norm_num) (by norm_num) (by norm_num)
        (by norm_num) (by norm_num)
      have hb : |130e3 * R.val dist / R.val x| ≤ 130e3 := by
        rw [abs_of_pos (by positivity), div_le_iff₀ hvx]
        exact mul_le_mul_of_nonneg_left h.le (by norm_num)
      exact ((hq.tight hb).toNB (by norm_num) (g := 6e-8) (by norm_num)).toNear
    · refine ⟨_, rfl, ?_⟩
      have ha : NB R (130e3 + dist) (130e3 + R.val dist) 1.013e7 1.1e-8 := hc.add hd' (by norm_num) (by norm_num) (by norm_num)
      exact (ha.sub (NB.self hx (X := 1.5e6) (by rw [abs_of_pos hvx]; exact hvu)) (Z := 1.2e7) (by norm_num) (by norm_num) (by norm_num)).toNear
  obtain ⟨de, e1, n1⟩ := key
  refine ⟨de, effR (R.val dist) x', e1, effDist_real hx', ⟨⟨n1.fin, ?_⟩, ?_⟩, ?_⟩
  · have hl : |effR (R.val dist) (R.val x) - effR (R.val dist) x'| ≤ 1.3e-7 := by
      rcases le_total (R.val x) x' with h | h
      · refine (effR_lip hdp hvx (δ := 8e-14) (by norm_num) h ?_).trans ?_
        · have := he'.1; norm_num at *; linarith
        · have := he'.1; norm_num at *; linarith
      · rw [abs_sub_comm]
        refine (effR_lip hdp hx' (δ := 8e-14) (by norm_num) h ?_).trans ?_
        · have := he'.2; norm_num at *; linarith
        · have := he'.2; norm_num at *; linarith
    have h5 := abs_sub_le (R.val de) (effR (R.val dist) (R.val x)) (effR (R.val dist) x')
    have h6 := n1.err
    norm_num at *
    linarith
  · unfold effR
    split_ifs with h
    · have : 130e3 * R.val dist / x' ≤ 130e3 := by
        rw [div_le_iff₀ hx']; exact mul_le_mul_of_nonneg_left h.le (by norm_num)
      rw [abs_of_pos (by positivity)]
      norm_num at *
      linarith
    · push Not at h
      rw [abs_of_pos (by norm_num at *; linarith)]
      norm_num at *
      linarith
  · unfold effR
    split_ifs with h
    · rw [le_div_iff₀ hx']; norm_num at *; linarith
    · push Not at h
      norm_num at *
      linarith

/-- The deviation of the locations. -/
theorem sgl_round (wl : Bool) {dist dh wn : α} (hd : R.fin dist) (h1 : 1e3 ≤ R.val dist) (h2 : R.val dist ≤ 1e7)
    (hh : R.fin dh) (hh0 : 0 ≤ R.val dh) (hh1 : R.val dh ≤ 1e5) (hw : R.fin wn) (hw1 : 0.01 ≤ R.val wn) (hw2 : R.val wn ≤ 1e4) :
    ∃ s s', sglOf wl dist dh wn = .ok s ∧ sglOf wl (R.val dist) (R.val dh) (R.val wn) = .ok s' ∧ NB R s s' 10 3e-10 := by
  unfold sglOf
  cases wl
  · simp only [Bool.false_eq_true, if_false, rexp]
    have hdp : 0 < R.val dist := lt_of_lt_of_le (by norm_num) h1
    have hwp : 0 < R.val wn := lt_of_lt_of_le (by norm_num) hw1
    have hd' : NB R dist (R.val dist) 1e7 0 := NB.self hd (by rw [abs_of_pos hdp]; exact h2)
    have h50 : NB R (50e3 : α) (50e3 : ℝ) 50e3 0 := by
      have := Near.lit_int R (m := 50) (s := false) (k := 3) 50000 (by norm_num) (by norm_num)
      exact ⟨Near.of_eq this.1 this.2, by norm_num⟩
    have ha : Near R (-dist / 50e3) (-R.val dist / 50e3) 3e-13 :=
      (hd'.neg.toNear.div h50.toNear (Q := 200) (m := 50e3) (M := 200)
        (by rw [abs_div, abs_neg, abs_of_pos hdp, abs_of_pos (by norm_num : (0 : ℝ) < 50e3), div_le_iff₀ (by norm_num)]; norm_num at *; linarith)
        (by rw [abs_of_pos (by norm_num : (0 : ℝ) < 50e3)]) (by norm_num) (by norm_num) (by norm_num) (by norm_num)).1
    have hE1 : Real.exp (-R.val dist / 50e3) ≤ 1 := Real.exp_le_one_iff.2 (div_nonpos_of_nonpos_of_nonneg (by linarith) (by norm_num))
    have hE0 := Real.exp_pos (-R.val dist / 50e3)
    have hE : NB R (PyNum.exp (-dist / 50e3)) (Real.exp (-R.val dist / 50e3)) 1 7e-13 :=
      ⟨ha.exp (M := 1) hE1 (by norm_num) (by norm_num) (by norm_num), by rw [abs_of_pos hE0]; exact hE1⟩
    generalize PyNum.exp (-dist / 50e3) = Ea at *
    generalize Real.exp (-R.val dist / 50e3) = E at *
    clear ha
    have h08 : NB R (0.8 : α) (0.8 : ℝ) 0.8 1e-15 := NB.lit R (by norm_num) (by norm_num) (by norm_num)
    have hone : NB R (1.0 : α) (1.0 : ℝ) 1 2e-15 := NB.lit R (by norm_num) (by norm_num) (by norm_num)
    have hf : NB R (1.0 - 0.8 * Ea) (1.0 - 0.8 * E) 2 7e-13 :=
      hone.sub (h08.mul hE (Z := 0.8) (g := 6e-13) (by norm_num) (by norm_num) (by norm_num)) (by norm_num) (by norm_num) (by norm_num)
    have hfl : 0.2 ≤ 1.0 - 0.8 * E := by norm_num; linarith
    have hfu : 1.0 - 0.8 * E ≤ 1 := by norm_num; linarith
    generalize 1.0 - 0.8 * Ea = fa at *
    generalize (1.0 : ℝ) - 0.8 * E = f at *
    have hfp : 0 ≤ f := le_trans (by norm_num) hfl
    have hfr : NR R fa f 1 4e-12 0 := by
      refine ⟨hf.fin, hf.err.trans ?_, by rw [abs_of_nonneg hfp]; exact hfu⟩
      rw [abs_of_nonneg hfp]; norm_num at *; linarith
    have hva : 0 ≤ R.val fa := by have := hf.ge; norm_num at *; linarith
    have m1 : NR R (fa * dh) (f * R.val dh) 1e5 5e-12 1e-90 :=
      hfr.mul (NR.self hh (X := 1e5) (by rw [abs_of_nonneg hh0]; exact hh1)) (by norm_num) (by norm_num) (by norm_num) (by norm_num) (by norm_num)
        (by norm_num) (by norm_num) (by norm_num)
    have v1 : 0 ≤ R.val (fa * dh) := by
      have hb : |R.val fa * R.val dh| ≤ 1e10 := by
        rw [abs_of_nonneg (by positivity)]
        have h9 : R.val fa ≤ 2 := by have := hf.le; norm_num at *; linarith
        have := mul_le_mul h9 hh1 hh0 (by norm_num)
        norm_num at *; linarith
      rw [(R.mul _ _ hf.fin hh (le_roundBig (hb.trans (by norm_num)))).2]
      exact rnd_nonneg R (by positivity)
    have m2 : NR R (fa * dh * wn) (f * R.val dh * R.val wn) 1e9 6e-12 1e-80 :=
      m1.mul (NR.self hw (X := 1e4) (by rw [abs_of_pos hwp]; exact hw2)) (by norm_num) (by norm_num) (by norm_num) (by norm_num) (by norm_num)
        (by norm_num) (by norm_num) (by norm_num)
    have v2 : 0 ≤ R.val (fa * dh * wn) := by
      have hb : |R.val (fa * dh) * R.val wn| ≤ 1e12 := by
        rw [abs_of_nonneg (by positivity)]
        have h9 := m1.abs_val (by norm_num)
        rw [abs_of_nonneg v1] at h9
        have h9 : R.val (fa * dh) ≤ 1.1e5 := h9.trans (by norm_num)
        have := mul_le_mul h9 hw2 hwp.le (by norm_num)
        norm_num at *; linarith
      rw [(R.mul _ _ m1.fin hw (le_roundBig (hb.trans (by norm_num)))).2]
      exact rnd_nonneg R (by positivity)
    have q0 : 0 ≤ f * R.val dh * R.val wn := by positivity
    generalize fa * dh * wn = q at *
    generalize f * R.val dh * R.val wn = Q at *
    have hl10 := Near.lit_int R (m := 100) (s := true) (k := 1) 10 (by norm_num) (by norm_num)
    have e10 : R.val (10.0 : α) = 10 := by rw [hl10.2]; norm_num
    have hl13 := Near.lit_int R (m := 130) (s := true) (k := 1) 13 (by norm_num) (by norm_num)
    have e13 : R.val (13.0 : α) = 13 := by rw [hl13.2]; norm_num
    have n10 : NR R (10.0 : α) 10 10 0 0 := NR.of_eq hl10.1 e10 (by norm_num)
    have n13 : NP R (13.0 : α) 13 13 6e-12 0 := ⟨(NR.of_eq hl13.1 e13 (by norm_num)).mono (by norm_num) le_rfl, by norm_num, by rw [e13]; norm_num⟩
    have t1 : NR R (10.0 * q) (10 * Q) 1e10 7e-12 1e-70 :=
      n10.mul m2 (by norm_num) (by norm_num) (by norm_num) (by norm_num) (by norm_num) (by norm_num) (by norm_num) (by norm_num)
    have hqP : NP R q Q 1e9 6e-12 1e-80 := ⟨m2, q0, v2⟩
    have t2 : NP R (q + 13.0) (Q + 13) 1.1e9 7e-12 1e-70 :=
      hqP.add n13 (by norm_num) (by norm_num) (by norm_num) (by norm_num) (by norm_num) (by norm_num) (by norm_num) (by norm_num)
    obtain ⟨t3, t4⟩ := t1.div t2.toNR (m := 13) (w := 8e-12) (Z := 1e9) (r' := 2e-11) (t' := 1e-60) (by norm_num) (by linarith)
      (by norm_num) (by norm_num) (by norm_num) (by norm_num) (by norm_num) (by norm_num) (by norm_num) (by norm_num) (by norm_num) (by norm_num)
    have hb : |10 * Q / (Q + 13)| ≤ 10 := by
      rw [abs_of_nonneg (by positivity), div_le_iff₀ (by linarith)]; linarith
    refine ⟨_, 10 * Q / (Q + 13), pyDiv_round t2.fin t4.ne', ?_, (t3.tight hb).toNB (by norm_num) (by norm_num)⟩
    rw [pyDiv_ok (by norm_num; linarith)]
    norm_num
  · simp only [if_true]
    have fz := fin_zero (α := α) R
    exact ⟨_, _, rfl, rfl, (⟨Near.of_eq fz.1 (by rw [fz.2]; norm_num), by norm_num⟩ : NB R (0.0 : α) (0.0 : ℝ) 10 0).mono (by norm_num)⟩

end Itm.Props
