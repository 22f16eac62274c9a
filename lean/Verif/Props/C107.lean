import Verif.Lemmas.EnvRound
import Verif.Lemmas.Binary64
import Verif.Spec.EndToEnd

/-! C107: the environment parameters survive rounding. -/

namespace Itm.Props
open Itm Spec
variable {α : Type} [PyNum α]

/-- There is one impedance only. -/
theorem impedance_only {e s w : ℝ} (he : 1 < e) {v : Bool} {z z' : ℂ} (h : IsImpedance e s w v z) (h' : IsImpedance e s w v z') : z = z' := by
  obtain ⟨r, k, hr, rfl⟩ := h
  obtain ⟨r', k', hr', rfl⟩ := h'
  suffices r = r' by rw [this]
  rcases sq_eq_sq_iff_eq_or_eq_neg.1 (k.trans k'.symm) with c | c
  · exact c
  · exfalso
    have h0 : r.re = 0 := le_antisymm (by rw [c, Complex.neg_re]; linarith) hr
    have := congrArg Complex.re k
    rw [sq, Complex.mul_re, h0] at this
    simp only [permittivity, Complex.sub_re, Complex.one_re] at this
    nlinarith [mul_self_nonneg r.im]

/-- Over grounds of ordinary permittivity and conductivity, at ordinary frequencies and elevations, `qlrps` computed in rounding arithmetic answers, every number it returns is finite,
and each is next to the value of its formula at the same inputs: the impedance to ten decimals, by either polarization. -/
theorem C107_environment (R : Rounding α) {f z n e s : α} (ipol : ℤ) (ff : R.fin f) (f1 : 1 ≤ R.val f) (f2 : R.val f ≤ 1e5) (fz : R.fin z) (z1 : |R.val z| ≤ 1e4)
    (fn : R.fin n) (n1 : 1 ≤ R.val n) (n2 : R.val n ≤ 1000) (n3 : R.val n * Real.exp (-R.val z / 9460) ≤ 500)
    (fe : R.fin e) (e1 : 2 ≤ R.val e) (e2 : R.val e ≤ 100) (fs : R.fin s) (s1 : 1e-5 ≤ R.val s) (s2 : R.val s ≤ 10) :
    ∃ r, qlrps f z n ipol e s = .ok r ∧ R.fin r.wn ∧ R.fin r.ens ∧ R.fin r.gme ∧ R.fin r.zgnd.re ∧ R.fin r.zgnd.im ∧
      |R.val r.wn - waveNumber (R.val f)| ≤ 3.1e-15 * waveNumber (R.val f) ∧
      |R.val r.ens - R.val n * Real.exp (-R.val z / 9460)| ≤ 7e-15 * (R.val n * Real.exp (-R.val z / 9460)) ∧
      |R.val r.gme - 157e-9 * (1 - 0.04665 * Real.exp (R.val n * Real.exp (-R.val z / 9460) / 179.3))| ≤ 2e-20 ∧
      ∃! ζ, IsImpedance (R.val e) (R.val s) (waveNumber (R.val f)) (decide (ipol ≠ 0)) ζ ∧ ‖(⟨R.val r.zgnd.re, R.val r.zgnd.im⟩ : ℂ) - ζ‖ ≤ 1e-10 := by
  have hf : RL R f (R.val f) 0 := RL.self ff (f1.trans' (by norm_num)) (f2.trans (by norm_num))
  have c : RL R (47.7 : α) 47.7 1.5e-15 := RL.lit R (by norm_num) (by norm_num)
  have w1 : 0.02 ≤ waveNumber (R.val f) := by unfold waveNumber; rw [le_div_iff₀ (by norm_num)]; norm_num; linarith
  have w2 : waveNumber (R.val f) ≤ 2100 := by unfold waveNumber; rw [div_le_iff₀ (by norm_num)]; norm_num at f2 ⊢; linarith
  have hw : RL R (f / 47.7) (waveNumber (R.val f)) 3.1e-15 :=
    (hf.div c (by norm_num) (by norm_num) (w1.trans' (by norm_num)) (w2.trans (by norm_num)) (by norm_num)).1
  have hn := refr_round fz z1 fn n1 n2
  have p1 : 1e-3 ≤ R.val n * Real.exp (-R.val z / 9460) := by
    have h1 : (1e-3 : ℝ) ≤ Real.exp (-R.val z / 9460) := by
      have h2 : (1 / 27 : ℝ) ≤ Real.exp (-3) := by
        have := Real.exp_one_lt_d9
        rw [Real.exp_neg, ← one_div]
        apply one_div_le_one_div_of_le (Real.exp_pos _)
        have e3 : Real.exp 3 = Real.exp 1 ^ 3 := by rw [← Real.exp_nat_mul]; norm_num
        rw [e3]
        calc Real.exp 1 ^ 3 ≤ 3 ^ 3 := pow_le_pow_left₀ (Real.exp_pos _).le (by linarith) 3
          _ = 27 := by norm_num
      have h3 : -3 ≤ -R.val z / 9460 := by
        rw [le_div_iff₀ (by norm_num)]; have := (abs_le.1 z1).2; norm_num at this ⊢; linarith
      exact (h2.trans (Real.exp_le_exp.2 h3)).trans' (by norm_num)
    generalize Real.exp (-R.val z / 9460) = y at *
    norm_num at h1 ⊢
    nlinarith
  have hg := curv_round hn p1 n3
  obtain ⟨q, q', a, a', k1, k2, k3, k4, k5⟩ := ground_round ipol fe e1 e2 fs s1 s2 hw w1 w2
  have wp : 0 < waveNumber (R.val f) := hw.pos
  have hq : q'.toC = permittivity (R.val e) (R.val s) (waveNumber (R.val f)) := by
    unfold groundZq at k2
    rw [pyDiv_ok wp.ne', ok_bind, pure_ok, ok_inj] at k2
    rw [← k2]; rfl
  have hz : IsImpedance (R.val e) (R.val s) (waveNumber (R.val f)) (decide (ipol ≠ 0)) a'.toC := by
    obtain ⟨b1, b2⟩ := cxsqrt_spec (q'.sub ⟨1.0, 0.0⟩)
    refine ⟨(Cx.sqrt (q'.sub ⟨1.0, 0.0⟩)).toC, ?_, b2, ?_⟩
    · rw [b1, toC_sub, toC_real, hq]; norm_num
    · by_cases hp : ipol ≠ 0
      · rw [if_pos hp] at k4
        rw [if_pos (decide_eq_true hp), ← hq, toC_div k4]
      · rw [if_neg hp, pure_ok, ok_inj] at k4
        rw [if_neg (by simpa using hp), k4]
  refine ⟨⟨f / 47.7, _, _, a⟩, ?_, hw.fin, hn.fin, hg.fin, k5.re, k5.im, hw.err, hn.err, hg.err, a'.toC, ⟨hz, k5.err⟩, fun y hy => impedance_only (by linarith) hy.1 hz⟩
  unfold qlrps
  dsimp only
  rw [k1, ok_bind]
  by_cases hp : ipol ≠ 0
  · rw [if_pos hp] at k3 ⊢
    rw [k3, ok_bind, pure_ok]
    congr
  · rw [if_neg hp] at k3 ⊢
    rw [pure_ok, ok_inj] at k3
    rw [pure_bind, pure_ok, k3]
    congr

/-- Average ground at 100 MHz and sea level, vertical polarization, in double precision. -/
example {M : Libm} (h : M.Accurate) : ∃ r : Qlrps (DoubleOf M), qlrps 100.0 0.0 301.0 1 15.0 0.005 = .ok r ∧ Double.Finite r.zgnd.re ∧ Double.Finite r.zgnd.im := by
  obtain ⟨f0, v0⟩ := Near.lit_int (ieee h) (m := 1000) (s := true) (k := 1) 100 (by norm_num) (by norm_num)
  obtain ⟨f1, v1⟩ := fin_zero (ieee h)
  obtain ⟨f2, v2⟩ := Near.lit_int (ieee h) (m := 3010) (s := true) (k := 1) 301 (by norm_num) (by norm_num)
  obtain ⟨f3, v3⟩ := Near.lit_int (ieee h) (m := 150) (s := true) (k := 1) 15 (by norm_num) (by norm_num)
  have n4 := NB.lit (ieee h) (m := 5) (s := true) (k := 3) (X := 1) (g := 2e-15) (by norm_num) (by norm_num) (by norm_num)
  have g4 := abs_le.1 n4.err
  obtain ⟨r, e, -, -, -, a, b, -⟩ := C107_environment (ieee h) 1 f0 (by rw [v0]; norm_num) (by rw [v0]; norm_num) f1 (by rw [v1]; norm_num)
    f2 (by rw [v2]; norm_num) (by rw [v2]; norm_num) (by rw [v1, v2, neg_zero, zero_div, Real.exp_zero]; norm_num)
    f3 (by rw [v3]; norm_num) (by rw [v3]; norm_num) n4.fin (by clear * - g4; norm_num at *; linarith) (by clear * - g4; norm_num at *; linarith)
  exact ⟨r, e, a, b⟩

end Itm.Props
