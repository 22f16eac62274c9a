import Verif.Props.C107
import Verif.Model.Lrprop

/-! C108: which environments `lrprop` reports, in rounding arithmetic. -/

namespace Itm.Props
open Itm Spec
variable {α : Type} [PyNum α]

theorem margin {a b p T δ : ℝ} (ha : 0 ≤ a) (hp : 0 < p) (h : p ≤ a ^ 2 - b ^ 2) (ht : a ^ 2 + b ^ 2 ≤ T) (hT : δ ^ 2 * (2 * T) < p ^ 2) : δ ≤ a - |b| := by
  by_contra hc
  push Not at hc
  have hb := abs_nonneg b
  have h2 : a ^ 2 - b ^ 2 = (a - |b|) * (a + |b|) := by rw [← sq_abs b]; ring
  have h3 : p ≤ δ * (a + |b|) := by
    rw [h2] at h
    exact h.trans (mul_le_mul_of_nonneg_right hc.le (by linarith))
  have h4 : p ^ 2 ≤ (δ * (a + |b|)) ^ 2 := pow_le_pow_left₀ hp.le h3 2
  have h5 : (a + |b|) ^ 2 ≤ 2 * T := by nlinarith [sq_nonneg (a - |b|), sq_abs b]
  rw [mul_pow] at h4
  have := mul_le_mul_of_nonneg_left h5 (sq_nonneg δ)
  linarith

/-- The real part of the impedance exceeds the imaginary one by more than rounding can change. -/
theorem impedance_margin {e s w : ℝ} {v : Bool} {z : ℂ} (e1 : 2 ≤ e) (e2 : e ≤ 100) (X1 : 0 < 376.62 * s / w) (X2 : 376.62 * s / w ≤ 2e5) (h : IsImpedance e s w v z) :
    2e-10 ≤ z.re - |z.im| := by
  obtain ⟨r, k, hr, hz⟩ := h
  unfold permittivity at k hz
  generalize 376.62 * s / w = X at *
  obtain ⟨a, b⟩ := r
  have kr := congrArg Complex.re k
  have ki := congrArg Complex.im k
  simp only [sq, Complex.mul_re, Complex.mul_im, Complex.sub_re, Complex.sub_im, Complex.one_re, Complex.one_im] at kr ki hr
  have ha : 0 < a := by
    rcases hr.eq_or_lt with h | h
    · rw [← h] at kr; nlinarith [mul_self_nonneg b]
    · exact h
  have hb : 0 < b := by
    by_contra hc
    nlinarith [mul_nonneg ha.le (neg_nonneg.2 (not_lt.1 hc))]
  cases v
  · rw [if_neg (by simp)] at hz
    subst hz
    refine margin (p := 1) (T := 3e5) hr one_pos (by dsimp only; nlinarith) ?_ (by norm_num)
    dsimp only
    have : (a ^ 2 + b ^ 2) ^ 2 = (e - 1) ^ 2 + X ^ 2 := by
      have h1 : e - 1 = a * a - b * b := kr.symm
      have h2 : X = a * b + b * a := by linarith
      rw [h1, h2]; ring
    exact (abs_le_of_sq_le_sq' (by rw [this]; norm_num at X2 ⊢; nlinarith) (by norm_num)).2
  · rw [if_pos rfl] at hz
    have hN : 0 < e ^ 2 + X ^ 2 := by positivity
    have hre : z.re = (a * e + b * X) / (e ^ 2 + X ^ 2) := by
      rw [hz, Complex.div_re]; simp only [Complex.normSq_mk]; rw [← add_div]; congr 1; ring
    have him : z.im = (b * e - a * X) / (e ^ 2 + X ^ 2) := by
      rw [hz, Complex.div_im]; simp only [Complex.normSq_mk]; rw [← sub_div]; congr 1; ring
    have h2 : X = a * b + b * a := by linarith
    have d1 : (z.re ^ 2 - z.im ^ 2) * (e ^ 2 + X ^ 2) ^ 2 = (e - 1) * e ^ 2 + (e + 1) * X ^ 2 := by
      rw [hre, him, div_pow, div_pow, ← sub_div, div_mul_cancel₀ _ (by positivity)]
      have : (a * e + b * X) ^ 2 - (b * e - a * X) ^ 2 = (a * a - b * b) * (e ^ 2 - X ^ 2) + 2 * (a * b + b * a) * (e * X) := by ring
      rw [this, kr, ← h2]; ring
    have d2 : (z.re ^ 2 + z.im ^ 2) ^ 2 * (e ^ 2 + X ^ 2) ^ 2 = (e - 1) ^ 2 + X ^ 2 := by
      have d3 : (z.re ^ 2 + z.im ^ 2) * (e ^ 2 + X ^ 2) = a ^ 2 + b ^ 2 := by
        rw [hre, him, div_pow, div_pow, ← add_div, div_mul_eq_mul_div, div_eq_iff (by positivity)]; ring
      rw [← mul_pow, d3]
      have h1 : e - 1 = a * a - b * b := kr.symm
      rw [h1, h2]; ring
    obtain ⟨M, hM⟩ : ∃ M, M = √(e ^ 2 + X ^ 2) := ⟨_, rfl⟩
    have M2 : M ^ 2 = e ^ 2 + X ^ 2 := by rw [hM, Real.sq_sqrt hN.le]
    have M0 : 0 < M := by rw [hM]; exact Real.sqrt_pos.2 hN
    have M1 : M ≤ 2.1e5 := by
      rw [hM]; exact Real.sqrt_le_iff.2 ⟨by norm_num, by norm_num at X2 ⊢; nlinarith⟩
    rw [← M2] at d1 d2
    have zr : 0 ≤ z.re := by rw [hre]; positivity
    refine margin (p := 1 / M ^ 2) (T := 1 / M) zr (by positivity) ?_ ?_ ?_
    · rw [div_le_iff₀ (by positivity)]
      have : M ^ 2 ≤ (z.re ^ 2 - z.im ^ 2) * (M ^ 2) ^ 2 := by rw [d1, M2]; nlinarith [sq_nonneg e, sq_nonneg X]
      have e4 : (z.re ^ 2 - z.im ^ 2) * (M ^ 2) ^ 2 = (z.re ^ 2 - z.im ^ 2) * M ^ 2 * M ^ 2 := by ring
      rw [e4] at this
      exact le_of_mul_le_mul_right (by linarith) (show 0 < M ^ 2 by positivity)
    · rw [le_div_iff₀ M0]
      have : ((z.re ^ 2 + z.im ^ 2) * M ^ 2) ^ 2 ≤ M ^ 2 := by
        rw [mul_pow, d2, M2]; nlinarith
      have h5 := (abs_le_of_sq_le_sq' this M0.le).2
      have e4 : (z.re ^ 2 + z.im ^ 2) * M ^ 2 = (z.re ^ 2 + z.im ^ 2) * M * M := by ring
      rw [e4] at h5
      exact le_of_mul_le_mul_right (by linarith) M0
    · rw [div_pow, one_pow, ← mul_div_assoc, ← mul_div_assoc, div_lt_div_iff₀ M0 (by positivity)]
      have h6 : M ^ 3 ≤ 2.1e5 ^ 3 := pow_le_pow_left₀ M0.le M1 3
      have e4 : (2e-10 : ℝ) ^ 2 * (2 * 1) * (M ^ 2) ^ 2 = (2e-10) ^ 2 * 2 * M ^ 3 * M := by ring
      rw [e4]
      refine mul_lt_mul_of_pos_right ?_ M0
      norm_num at h6 ⊢
      linarith

set_option maxHeartbeats 1000000 in
/-- `lrprop` run in rounding arithmetic on the environment that `qlrps` prepared: if no antenna height is out of range and no error was reported before, error code 4 is
reported for a surface refractivity outside 250 to 400 or a wave number outside 0.419 to 420 and for nothing else. The checks of curvature and impedance never decide,
not even through rounding. -/
theorem C108_reported (R : Rounding α) {f z n e s : α} (ipol : ℤ) (ff : R.fin f) (f1 : 1 ≤ R.val f) (f2 : R.val f ≤ 1e5) (fz : R.fin z) (z1 : |R.val z| ≤ 1e4)
    (fn : R.fin n) (n1 : 1 ≤ R.val n) (n2 : R.val n ≤ 1000) (n3 : R.val n * Real.exp (-R.val z / 9460) ≤ 500)
    (fe : R.fin e) (e1 : 2 ≤ R.val e) (e2 : R.val e ≤ 100) (fs : R.fin s) (s1 : 1e-5 ≤ R.val s) (s2 : R.val s ≤ 10) {N : ℝ} (hN : N = R.val n * Real.exp (-R.val z / 9460))
    (g1 : 1e-9 ≤ |N - 250|) (g2 : 1e-9 ≤ |N - 400|) (g3 : 1e-9 ≤ |waveNumber (R.val f) - 0.419|) (g4 : 1e-9 ≤ |waveNumber (R.val f) - 420|) :
    ∃ r, qlrps f z n ipol e s = .ok r ∧ ∀ (p : PropSt α) (h : Horizon α), p.wn = r.wn → p.gme = r.gme → p.ens = r.ens → p.zgnd = r.zgnd → p.kwx ≤ 3 →
      ¬ (p.hg.x0 < 0.5 ∨ 3000.0 < p.hg.x0) → ¬ (p.hg.x1 < 0.5 ∨ 3000.0 < p.hg.x1) → (lrKwx p h = 4 ↔
        N < 250 ∨ 400 < N ∨ waveNumber (R.val f) < 0.419 ∨ 420 < waveNumber (R.val f)) := by
  obtain ⟨r, k, a1, a2, a3, a4, a5, b1, b2, b3, ζ, ⟨c1, c2⟩, -⟩ := C107_environment R ipol ff f1 f2 fz z1 fn n1 n2 n3 fe e1 e2 fs s1 s2
  refine ⟨r, k, fun p h hw hg hn hz hk t0 t1 => ?_⟩
  rw [← hN] at n3 b2 b3
  have w1 : 0.02 ≤ waveNumber (R.val f) := by unfold waveNumber; rw [le_div_iff₀ (by norm_num)]; norm_num; linarith
  have w2 : waveNumber (R.val f) ≤ 2100 := by unfold waveNumber; rw [div_le_iff₀ (by norm_num)]; norm_num at f2 ⊢; linarith
  have N0 : 0 < N := by rw [hN]; have := Real.exp_pos (-R.val z / 9460); nlinarith
  generalize waveNumber (R.val f) = W at *
  have W0 : 0 < W := lt_of_lt_of_le (by norm_num) w1
  have X1 : 0 < 376.62 * R.val s / W := div_pos (by norm_num at s1 ⊢; linarith) W0
  have X2 : 376.62 * R.val s / W ≤ 2e5 := by rw [div_le_iff₀ W0]; norm_num at *; linarith
  have hm := impedance_margin e1 e2 X1 X2 c1
  have m1 := (Complex.abs_re_le_norm _).trans c2
  have m2 := (Complex.abs_im_le_norm _).trans c2
  rw [Complex.sub_re] at m1
  rw [Complex.sub_im] at m2
  dsimp only at m1 m2
  obtain ⟨l1, v1⟩ := Near.lit_int R (m := 2500) (s := true) (k := 1) 250 (by norm_num) (by norm_num)
  obtain ⟨l2, v2⟩ := Near.lit_int R (m := 4000) (s := true) (k := 1) 400 (by norm_num) (by norm_num)
  obtain ⟨l3, v3⟩ := Near.lit_int R (m := 4200) (s := true) (k := 1) 420 (by norm_num) (by norm_num)
  have v1' : R.val (250.0 : α) = 250 := v1.trans (by norm_num)
  have v2' : R.val (400.0 : α) = 400 := v2.trans (by norm_num)
  have v3' : R.val (420.0 : α) = 420 := v3.trans (by norm_num)
  have u4 : RL R (0.419 : α) 0.419 1.5e-15 := RL.lit R (by norm_num) (by norm_num)
  have u5 : RL R (75e-9 : α) 75e-9 1.5e-15 := RL.lit R (by norm_num) (by norm_num)
  have u6 : RL R (250e-9 : α) 250e-9 1.5e-15 := RL.lit R (by norm_num) (by norm_num)
  have v4 := abs_le.1 u4.err
  have v5 := abs_le.1 u5.err
  have v6 := abs_le.1 u6.err
  obtain ⟨f7, v7⟩ := R.abs r.zgnd.im a5
  have q1 := abs_le.1 b1
  have q2 := abs_le.1 b2
  have q3 := abs_le.1 b3
  have t1' : ¬ 250e-9 < r.gme := by
    rw [R.lt _ _ u6.fin a3]
    have := Real.exp_pos (N / 179.3)
    generalize Real.exp (N / 179.3) = y at *
    clear * - q3 v6 this
    norm_num at *; linarith
  have t2' : ¬ r.zgnd.re < PyNum.abs r.zgnd.im := by
    rw [R.lt _ _ a4 f7, v7]
    have m3 := abs_sub_abs_le_abs_sub (R.val r.zgnd.im) ζ.im
    have m4 := (abs_le.1 m1).1
    clear * - m3 m4 m2 hm
    norm_num at *; linarith
  have t3' : r.gme < 75e-9 → 400 < N := by
    rw [R.lt _ _ a3 u5.fin]
    intro hlt
    by_contra hc
    have x1 : Real.exp (N / 179.3) ≤ 10 := by
      refine (Real.exp_le_exp.2 (show N / 179.3 ≤ 2 + 0.2310 by rw [div_le_iff₀ (by norm_num)]; norm_num at hc ⊢; linarith)).trans ?_
      rw [Real.exp_add]
      have y1 : Real.exp 2 ≤ 7.39 := by
        have := Real.exp_one_lt_d9
        have e3 : Real.exp 2 = Real.exp 1 ^ 2 := by rw [← Real.exp_nat_mul]; norm_num
        rw [e3]
        calc Real.exp 1 ^ 2 ≤ 2.7183 ^ 2 := pow_le_pow_left₀ (Real.exp_pos _).le (by norm_num; linarith) 2
          _ ≤ 7.39 := by norm_num
      have y2 : Real.exp 0.2310 ≤ 1.31 := by
        have := Real.add_one_le_exp (-0.2310 : ℝ)
        rw [Real.exp_neg] at this
        have p0 := Real.exp_pos (0.2310 : ℝ)
        have h3 : (0.769 : ℝ) * Real.exp 0.2310 ≤ 1 := by
          rw [← le_div_iff₀ p0, one_div]; norm_num at this ⊢; linarith
        norm_num at h3 ⊢; linarith
      calc Real.exp 2 * Real.exp 0.2310 ≤ 7.39 * 1.31 := mul_le_mul y1 y2 (Real.exp_pos _).le (by norm_num)
        _ ≤ 10 := by norm_num
    generalize Real.exp (N / 179.3) = y at *
    clear * - q3 v5 x1 hlt
    norm_num at *; linarith
  have s1' : r.ens < 250.0 ↔ N < 250 := by
    rw [R.lt _ _ a2 l1, v1']
    clear * - q2 g1 n3 N0
    rcases le_abs.1 g1 with c | c <;> norm_num at * <;> constructor <;> intro _ <;> linarith
  have s2' : 400.0 < r.ens ↔ 400 < N := by
    rw [R.lt _ _ l2 a2, v2']
    clear * - q2 g2 n3 N0
    rcases le_abs.1 g2 with c | c <;> norm_num at * <;> constructor <;> intro _ <;> linarith
  have s3' : r.wn < 0.419 ↔ W < 0.419 := by
    rw [R.lt _ _ a1 u4.fin]
    clear * - q1 g3 w2 W0 v4
    rcases le_abs.1 g3 with c | c <;> norm_num at * <;> constructor <;> intro _ <;> linarith
  have s4' : 420.0 < r.wn ↔ 420 < W := by
    rw [R.lt _ _ l3 a1, v3']
    clear * - q1 g4 w2 W0
    rcases le_abs.1 g4 with c | c <;> norm_num at * <;> constructor <;> intro _ <;> linarith
  have key : (r.ens < 250.0 ∨ 400.0 < r.ens ∨ r.gme < 75e-9 ∨ 250e-9 < r.gme ∨ r.zgnd.re < PyNum.abs r.zgnd.im ∨ r.wn < 0.419 ∨ 420.0 < r.wn) ↔ (N < 250 ∨ 400 < N ∨ W < 0.419 ∨ 420 < W) := by
    rw [s1', s2', s3', s4']
    constructor
    · rintro (c | c | c | c | c | c | c)
      · exact .inl c
      · exact .inr (.inl c)
      · exact .inr (.inl (t3' c))
      · exact absurd c t1'
      · exact absurd c t2'
      · exact .inr (.inr (.inl c))
      · exact .inr (.inr (.inr c))
    · rintro (c | c | c | c)
      · exact .inl c
      · exact .inr (.inl c)
      · exact .inr (.inr (.inr (.inr (.inr (.inl c)))))
      · exact .inr (.inr (.inr (.inr (.inr (.inr c)))))
  unfold lrKwx
  dsimp only
  rw [hw, hg, hn, hz, if_neg t0, if_neg t1]
  by_cases hu : N < 250 ∨ 400 < N ∨ W < 0.419 ∨ 420 < W
  · rw [if_pos (key.2 hu)]; exact iff_of_true rfl hu
  · rw [if_neg (fun w => hu (key.1 w))]
    refine iff_of_false (fun h4 => ?_) hu
    clear * - h4 hk
    split_ifs at h4 <;> omega

/-- Average ground in double precision: at 100 MHz the environment is accepted, at 10 MHz it is not, whatever the path. -/
example {M : Libm} (h : M.Accurate) : ∃ r r' : Qlrps (DoubleOf M), qlrps 100.0 0.0 301.0 1 15.0 0.005 = .ok r ∧ qlrps 10.0 0.0 301.0 1 15.0 0.005 = .ok r' ∧
    ∀ (p : PropSt (DoubleOf M)) (c : Horizon (DoubleOf M)), p.kwx ≤ 3 → ¬ (p.hg.x0 < 0.5 ∨ 3000.0 < p.hg.x0) → ¬ (p.hg.x1 < 0.5 ∨ 3000.0 < p.hg.x1) →
      lrKwx { p with wn := r.wn, gme := r.gme, ens := r.ens, zgnd := r.zgnd } c ≠ 4 ∧ lrKwx { p with wn := r'.wn, gme := r'.gme, ens := r'.ens, zgnd := r'.zgnd } c = 4 := by
  obtain ⟨f0, v0⟩ := Near.lit_int (ieee h) (m := 1000) (s := true) (k := 1) 100 (by norm_num) (by norm_num)
  obtain ⟨f5, v5⟩ := Near.lit_int (ieee h) (m := 100) (s := true) (k := 1) 10 (by norm_num) (by norm_num)
  obtain ⟨f1, v1⟩ := fin_zero (ieee h)
  obtain ⟨f2, v2⟩ := Near.lit_int (ieee h) (m := 3010) (s := true) (k := 1) 301 (by norm_num) (by norm_num)
  obtain ⟨f3, v3⟩ := Near.lit_int (ieee h) (m := 150) (s := true) (k := 1) 15 (by norm_num) (by norm_num)
  have n4 := NB.lit (ieee h) (m := 5) (s := true) (k := 3) (X := 1) (g := 2e-15) (by norm_num) (by norm_num) (by norm_num)
  have g4 := abs_le.1 n4.err
  have hN : (301 : ℝ) = (ieee h).val 301.0 * Real.exp (-(ieee h).val 0.0 / 9460) := by rw [v1, v2, neg_zero, zero_div, Real.exp_zero]; norm_num
  obtain ⟨r, e, a⟩ := C108_reported (ieee h) 1 f0 (by rw [v0]; norm_num) (by rw [v0]; norm_num) f1 (by rw [v1]; norm_num)
    f2 (by rw [v2]; norm_num) (by rw [v2]; norm_num) (by rw [← hN]; norm_num)
    f3 (by rw [v3]; norm_num) (by rw [v3]; norm_num) n4.fin (by clear * - g4; norm_num at *; linarith) (by clear * - g4; norm_num at *; linarith) hN
    (by norm_num [abs_of_pos]) (by norm_num [abs_of_neg]) (by rw [v0]; norm_num [waveNumber, abs_of_pos]) (by rw [v0]; norm_num [waveNumber, abs_of_neg])
  obtain ⟨r', e', a'⟩ := C108_reported (ieee h) 1 f5 (by rw [v5]; norm_num) (by rw [v5]; norm_num) f1 (by rw [v1]; norm_num)
    f2 (by rw [v2]; norm_num) (by rw [v2]; norm_num) (by rw [← hN]; norm_num)
    f3 (by rw [v3]; norm_num) (by rw [v3]; norm_num) n4.fin (by clear * - g4; norm_num at *; linarith) (by clear * - g4; norm_num at *; linarith) hN
    (by norm_num [abs_of_pos]) (by norm_num [abs_of_neg]) (by rw [v5]; norm_num [waveNumber, abs_of_neg]) (by rw [v5]; norm_num [waveNumber, abs_of_neg])
  refine ⟨r, r', e, e', fun p c k t0 t1 => ⟨?_, ?_⟩⟩
  · rw [Ne, a { p with wn := r.wn, gme := r.gme, ens := r.ens, zgnd := r.zgnd } c rfl rfl rfl rfl k t0 t1, v0]; norm_num [waveNumber]
  · rw [a' { p with wn := r'.wn, gme := r'.gme, ens := r'.ens, zgnd := r'.zgnd } c rfl rfl rfl rfl k t0 t1, v5]; norm_num [waveNumber]

/-- The size of the impedance. -/
theorem impedance_size {e s w : ℝ} {v : Bool} {z : ℂ} (e1 : 2 ≤ e) (e2 : e ≤ 100) (X1 : 0 < 376.62 * s / w) (X2 : 376.62 * s / w ≤ 2e5) (h : IsImpedance e s w v z) :
    1.05e-3 ≤ z.re ∧ z.re ≤ 900 := by
  have hm := impedance_margin e1 e2 X1 X2 h
  obtain ⟨r, k, -, hz⟩ := h
  have hz0 : 0 ≤ z.re := by have := abs_nonneg z.im; norm_num at hm; linarith
  have sq1 : z.re ^ 2 ≤ ‖z‖ ^ 2 := by rw [Complex.sq_norm, Complex.normSq_apply]; nlinarith [mul_self_nonneg z.im]
  have sq2 : ‖z‖ ^ 2 ≤ 2 * z.re ^ 2 := by
    rw [Complex.sq_norm, Complex.normSq_apply]
    have : |z.im| ≤ z.re := by norm_num at hm; linarith
    have := pow_le_pow_left₀ (abs_nonneg _) this 2
    rw [sq_abs] at this
    nlinarith
  obtain ⟨E, hE⟩ : ∃ E, E = permittivity e s w := ⟨_, rfl⟩
  rw [← hE] at k hz
  have nE : ‖E‖ ^ 2 = e ^ 2 + (376.62 * s / w) ^ 2 := by rw [Complex.sq_norm, Complex.normSq_apply, hE]; simp only [permittivity]; ring
  have nD : ‖E - 1‖ ^ 2 = (e - 1) ^ 2 + (376.62 * s / w) ^ 2 := by
    rw [Complex.sq_norm, Complex.normSq_apply, hE]; simp only [permittivity, Complex.sub_re, Complex.sub_im, Complex.one_re, Complex.one_im]; ring
  generalize 376.62 * s / w = X at *
  have E0 : 0 ≤ ‖E‖ := norm_nonneg _
  have D0 : 0 ≤ ‖E - 1‖ := norm_nonneg _
  have nr : ‖r‖ ^ 2 = ‖E - 1‖ := by rw [← norm_pow, k]
  have E1 : 2 ≤ ‖E‖ := (abs_le_of_sq_le_sq' (by rw [nE]; nlinarith [sq_nonneg X]) E0).2
  have E2 : ‖E‖ ≤ 2.1e5 := (abs_le_of_sq_le_sq' (by rw [nE]; norm_num at X2 ⊢; nlinarith) (by norm_num)).2
  have D1 : ‖E - 1‖ ≤ ‖E‖ := (abs_le_of_sq_le_sq' (by rw [nE, nD]; nlinarith) E0).2
  have D2 : ‖E‖ ≤ 2 * ‖E - 1‖ := (abs_le_of_sq_le_sq' (by rw [mul_pow, nE, nD]; nlinarith [sq_nonneg X]) (by linarith)).2
  clear hm k hE nE nD
  generalize ‖E - 1‖ = D at *
  cases v
  · rw [if_neg (by simp)] at hz
    rw [hz, nr] at sq1 sq2
    rw [hz] at hz0 ⊢
    generalize ‖E‖ = M at *
    refine ⟨?_, ?_⟩
    · exact (abs_le_of_sq_le_sq' (a := 1.05e-3) (by norm_num; linarith) hz0).2
    · exact (abs_le_of_sq_le_sq' (by norm_num at E2 ⊢; linarith) (by norm_num)).2
  · rw [if_pos rfl] at hz
    have nz : ‖z‖ ^ 2 = D / ‖E‖ ^ 2 := by rw [hz, norm_div, div_pow, nr]
    rw [nz] at sq1 sq2
    generalize ‖E‖ = M at *
    have M0 : 0 < M := by linarith
    rw [le_div_iff₀ (by positivity)] at sq1
    rw [div_le_iff₀ (by positivity)] at sq2
    refine ⟨?_, ?_⟩
    · have : 1 ≤ 4 * z.re ^ 2 * M := by
        have h1 : M * 1 ≤ M * (4 * z.re ^ 2 * M) := by nlinarith
        exact le_of_mul_le_mul_left h1 M0
      refine (abs_le_of_sq_le_sq' (a := 1.05e-3) ?_ hz0).2
      by_contra hc
      push Not at hc
      norm_num at hc E2
      nlinarith [sq_nonneg z.re]
    · refine (abs_le_of_sq_le_sq' (a := z.re) (b := 900) ?_ (by norm_num)).2
      have h1 : z.re ^ 2 * M * M ≤ 1 * M := by nlinarith
      have h2 : z.re ^ 2 * M ≤ 1 := le_of_mul_le_mul_right h1 M0
      nlinarith [sq_nonneg z.re]

/-- What `qlrps` prepares in rounding arithmetic has the wave number and the ground that the theorem on line-of-sight attenuation (C106) asks for. -/
theorem C108_ordinary (R : Rounding α) {f z n e s : α} (ipol : ℤ) (ff : R.fin f) (f1 : 1 ≤ R.val f) (f2 : R.val f ≤ 1e5) (fz : R.fin z) (z1 : |R.val z| ≤ 1e4)
    (fn : R.fin n) (n1 : 1 ≤ R.val n) (n2 : R.val n ≤ 1000) (n3 : R.val n * Real.exp (-R.val z / 9460) ≤ 500)
    (fe : R.fin e) (e1 : 2 ≤ R.val e) (e2 : R.val e ≤ 100) (fs : R.fin s) (s1 : 1e-5 ≤ R.val s) (s2 : R.val s ≤ 10) :
    ∃ r, qlrps f z n ipol e s = .ok r ∧ (0.01 ≤ R.val r.wn ∧ R.val r.wn ≤ 1e4) ∧ (1e-3 ≤ R.val r.zgnd.re ∧ R.val r.zgnd.re ≤ 1e3) ∧ |R.val r.zgnd.im| ≤ R.val r.zgnd.re := by
  obtain ⟨r, k, -, -, -, -, -, b1, -, -, ζ, ⟨c1, c2⟩, -⟩ := C107_environment R ipol ff f1 f2 fz z1 fn n1 n2 n3 fe e1 e2 fs s1 s2
  have w1 : 0.02 ≤ waveNumber (R.val f) := by unfold waveNumber; rw [le_div_iff₀ (by norm_num)]; norm_num; linarith
  have w2 : waveNumber (R.val f) ≤ 2100 := by unfold waveNumber; rw [div_le_iff₀ (by norm_num)]; norm_num at f2 ⊢; linarith
  generalize waveNumber (R.val f) = W at *
  have W0 : 0 < W := lt_of_lt_of_le (by norm_num) w1
  have X1 : 0 < 376.62 * R.val s / W := div_pos (by norm_num at s1 ⊢; linarith) W0
  have X2 : 376.62 * R.val s / W ≤ 2e5 := by rw [div_le_iff₀ W0]; norm_num at *; linarith
  have hm := impedance_margin e1 e2 X1 X2 c1
  have hs := impedance_size e1 e2 X1 X2 c1
  have m1 := (Complex.abs_re_le_norm _).trans c2
  have m2 := (Complex.abs_im_le_norm _).trans c2
  rw [Complex.sub_re] at m1
  rw [Complex.sub_im] at m2
  dsimp only at m1 m2
  have m3 := abs_sub_abs_le_abs_sub (R.val r.zgnd.im) ζ.im
  have m4 := abs_le.1 m1
  have q1 := abs_le.1 b1
  refine ⟨r, k, ?_, ?_, ?_⟩
  · clear * - q1 w1 w2; norm_num at *; constructor <;> linarith
  · clear * - m4 hs; norm_num at *; constructor <;> linarith
  · clear * - m3 m4 m2 hm; norm_num at *; linarith

/-- Sea water at 1 GHz in double precision, horizontal polarization. -/
example {M : Libm} (h : M.Accurate) : ∃ r : Qlrps (DoubleOf M), qlrps 1000.0 0.0 350.0 0 81.0 5.0 = .ok r ∧ 1e-3 ≤ Double.val r.zgnd.re := by
  obtain ⟨f0, v0⟩ := Near.lit_int (ieee h) (m := 10000) (s := true) (k := 1) 1000 (by norm_num) (by norm_num)
  obtain ⟨f1, v1⟩ := fin_zero (ieee h)
  obtain ⟨f2, v2⟩ := Near.lit_int (ieee h) (m := 3500) (s := true) (k := 1) 350 (by norm_num) (by norm_num)
  obtain ⟨f3, v3⟩ := Near.lit_int (ieee h) (m := 810) (s := true) (k := 1) 81 (by norm_num) (by norm_num)
  obtain ⟨f4, v4⟩ := Near.lit_int (ieee h) (m := 50) (s := true) (k := 1) 5 (by norm_num) (by norm_num)
  obtain ⟨r, e, -, a, -⟩ := C108_ordinary (ieee h) 0 f0 (by rw [v0]; norm_num) (by rw [v0]; norm_num) f1 (by rw [v1]; norm_num)
    f2 (by rw [v2]; norm_num) (by rw [v2]; norm_num) (by rw [v1, v2, neg_zero, zero_div, Real.exp_zero]; norm_num)
    f3 (by rw [v3]; norm_num) (by rw [v3]; norm_num) f4 (by rw [v4]; norm_num) (by rw [v4]; norm_num)
  exact ⟨r, e, a.1⟩

end Itm.Props
