import Verif.Lemmas.ElemRound
import Verif.Lemmas.LogBounds

/-! Knife-edge and smooth-earth diffraction in rounding arithmetic. -/

namespace Itm.Props
open Itm Spec
variable {α : Type} [PyNum α] {R : Rounding α}

/-! ### Knife edges -/

theorem knife_form {v : α} {x : ℝ} (hv : NB R v x 6 1e-14) (hs : NB R (PyNum.sqrt v) (√x) 3 1e-14) :
    Near R (6.02 + 9.11 * PyNum.sqrt v - 1.27 * v) (6.02 + 9.11 * √x - 1.27 * x) 1e-12 := by
  have l1 : NB R (6.02 : α) (6.02 : ℝ) 6.02 7e-15 := NB.lit R (by norm_num) (by norm_num) (by norm_num)
  have l2 : NB R (9.11 : α) (9.11 : ℝ) 9.11 1e-14 := NB.lit R (by norm_num) (by norm_num) (by norm_num)
  have l3 : NB R (1.27 : α) (1.27 : ℝ) 1.27 2e-15 := NB.lit R (by norm_num) (by norm_num) (by norm_num)
  have m1 : NB R (9.11 * PyNum.sqrt v) (9.11 * √x) 30 2e-13 := l2.mul hs (by norm_num) (by norm_num) (by norm_num)
  have m2 : NB R (1.27 * v) (1.27 * x) 8 4e-14 := l3.mul hv (by norm_num) (by norm_num) (by norm_num)
  have s1 : NB R (6.02 + 9.11 * PyNum.sqrt v) (6.02 + 9.11 * √x) 40 3e-13 := l1.add m1 (by norm_num) (by norm_num) (by norm_num)
  exact (s1.sub m2 (Z := 50) (by norm_num) (by norm_num) (by norm_num)).toNear

/-- The formula for obstacles that do not reach far into the path. -/
theorem knife_low (R : Rounding α) {v : α} (hf : R.fin v) (h : R.val v ≤ 6) :
    ∃ a b, (do let v2 := if v ≤ 0.0 then 0.00001 else v
               let s ← mathSqrt v2
               pure (6.02 + 9.11 * s - 1.27 * v2) : Py α) = .ok a ∧
      (do let v2 := if R.val v ≤ 0.0 then 0.00001 else R.val v
          let s ← mathSqrt v2
          pure (6.02 + 9.11 * s - 1.27 * v2) : Py ℝ) = .ok b ∧ Near R a b 1e-12 := by
  obtain ⟨f0, v0⟩ := fin_zero R
  have c : (v ≤ (0.0 : α)) ↔ R.val v ≤ 0.0 := by rw [R.le v _ hf f0, v0, zero_lit]
  by_cases k : R.val v ≤ 0.0
  · have r : RL R (0.00001 : α) (0.00001 : ℝ) 1.5e-15 := RL.lit R (by norm_num) (by norm_num)
    have q : √(0.00001 : ℝ) ≤ 1 := Real.sqrt_le_iff.2 (by norm_num)
    have q0 : 1e-40 ≤ √(0.00001 : ℝ) := Real.le_sqrt_of_sq_le (by norm_num)
    obtain ⟨s, e⟩ := r.sqrt (t := 3e-15) (by norm_num) (by norm_num) q0 (q.trans (by norm_num))
    rw [if_pos (c.2 k), if_pos k]
    dsimp only
    rw [e, ok_bind, mathSqrt_ok (by norm_num), ok_bind, pure_ok, pure_ok]
    refine ⟨_, _, rfl, rfl, knife_form ⟨⟨r.fin, r.err.trans (by norm_num)⟩, by norm_num⟩ ⟨⟨s.fin, s.err.trans ?_⟩, ?_⟩⟩
    · norm_num at *; linarith
    · rw [abs_of_nonneg (Real.sqrt_nonneg _)]; norm_num at *; linarith
  · have hp : 0 < R.val v := by rw [zero_lit] at k; exact not_le.1 k
    have q : √(R.val v) ≤ 3 := by rw [Real.sqrt_le_iff]; norm_num; linarith
    obtain ⟨sf, sv⟩ := R.sqrt v hf hp.le
    rw [if_neg (mt c.1 k), if_neg k]
    dsimp only
    rw [mathSqrt_round hf hp.le, ok_bind, mathSqrt_ok hp.le, ok_bind, pure_ok, pure_ok]
    have q' : |√(R.val v)| ≤ 3 := by rw [abs_of_nonneg (Real.sqrt_nonneg _)]; exact q
    refine ⟨_, _, rfl, rfl, knife_form ⟨⟨hf, by simp; norm_num⟩, by rw [abs_of_pos hp]; exact h⟩ ⟨⟨sf, ?_⟩, q'⟩⟩
    rw [sv]
    exact (Near.rnd_err R q' (by norm_num)).trans (by norm_num)

/-- The formula for obstacles that reach far into the path. -/
theorem knife_high (R : Rounding α) {v : α} (hf : R.fin v) (h : 1 ≤ R.val v) (h' : R.val v ≤ 1e40) :
    ∃ a b, (do let l ← npLog v; pure (12.953 + 4.343 * l) : Py α) = .ok a ∧
      (do let l ← npLog (R.val v); pure (12.953 + 4.343 * l) : Py ℝ) = .ok b ∧ Near R a b 1e-11 := by
  have r : RL R v (R.val v) 0 := RL.self hf (le_trans (by norm_num) h) h'
  obtain ⟨e, n⟩ := RL.log (g := 3e-13) r (by norm_num) (by norm_num)
  have l1 : NB R (12.953 : α) (12.953 : ℝ) 13 2e-14 := NB.lit R (by norm_num) (by norm_num) (by norm_num)
  have l2 : NB R (4.343 : α) (4.343 : ℝ) 5 6e-15 := NB.lit R (by norm_num) (by norm_num) (by norm_num)
  have m : NB R (4.343 * PyNum.log v) (4.343 * Real.log (R.val v)) 500 4e-12 := l2.mul n (by norm_num) (by norm_num) (by norm_num)
  rw [e, ok_bind, npLog_ok r.pos, ok_bind, pure_ok, pure_ok]
  exact ⟨_, _, rfl, rfl, (l1.add m (Z := 600) (by norm_num) (by norm_num) (by norm_num)).toNear⟩

theorem lit_knife (R : Rounding α) : R.fin (5.76 : α) ∧ |R.val (5.76 : α) - 5.76| ≤ 6e-15 := by
  have l : NB R (5.76 : α) (5.76 : ℝ) 5.76 6e-15 := NB.lit R (by norm_num) (by norm_num) (by norm_num)
  exact ⟨l.fin, l.err⟩

theorem aknfe_round (R : Rounding α) {v : α} (hf : R.fin v) (h : R.val v ≤ 1e40) (hc : 1e-14 ≤ |R.val v - 5.76|) :
    ∃ a b, aknfe v = .ok a ∧ aknfe (R.val v) = .ok b ∧ Near R a b 1e-11 := by
  obtain ⟨lf, le⟩ := lit_knife R
  rw [abs_le] at le
  unfold aknfe
  by_cases k : R.val v < 5.76
  · have c : v < (5.76 : α) := by
      rw [R.lt v _ hf lf]
      rw [abs_of_neg (by linarith)] at hc
      norm_num at *; linarith [le.1]
    rw [if_pos c, if_pos k]
    obtain ⟨a, b, e1, e2, n⟩ := knife_low R hf (k.le.trans (by norm_num))
    exact ⟨a, b, e1, e2, n.mono (by norm_num)⟩
  · have c : ¬ v < (5.76 : α) := by
      rw [R.lt v _ hf lf]
      rw [abs_of_nonneg (by linarith)] at hc
      norm_num at *; linarith [le.2]
    rw [if_neg c, if_neg k]
    exact knife_high R hf (by norm_num at *; linarith) h

/-- The two formulas do not meet. -/
theorem knife_gap {x a b : ℝ} (h : |x - 5.76| ≤ 1e-6)
    (ha : (do let v2 := if x ≤ 0.0 then 0.00001 else x
              let s ← mathSqrt v2
              pure (6.02 + 9.11 * s - 1.27 * v2) : Py ℝ) = .ok a)
    (hb : (do let l ← npLog x; pure (12.953 + 4.343 * l) : Py ℝ) = .ok b) : |a - b| ≤ 0.019 := by
  rw [abs_le] at h
  have x1 : 5.75999 ≤ x := by norm_num at *; linarith
  have x2 : x ≤ 5.76001 := by norm_num at *; linarith
  have hp : 0 < x := lt_of_lt_of_le (by norm_num) x1
  rw [if_neg (by rw [zero_lit]; exact not_le.2 hp)] at ha
  dsimp only at ha
  rw [mathSqrt_ok hp.le, ok_bind, pure_ok, ok_inj] at ha
  rw [npLog_ok hp, ok_bind, pure_ok, ok_inj] at hb
  have s1 : 2.3999 ≤ √x := Real.le_sqrt_of_sq_le (le_trans (by norm_num) x1)
  have s2 : √x ≤ 2.40001 := Real.sqrt_le_iff.2 ⟨by norm_num, x2.trans (by norm_num)⟩
  have l1 : 53 / 21 * 0.6931471803 ≤ Real.log x := le_trans (log_lower (y := 5.75999) 21 53 (by norm_num) (by norm_num)) (Real.log_le_log (by norm_num) x1)
  have l2 : Real.log x ≤ 48 / 19 * 0.6931471808 := (Real.log_le_log hp x2).trans (log_upper (y := 5.76001) 19 48 (by norm_num) (by norm_num) (by norm_num))
  rw [← ha, ← hb, abs_le]
  clear * - s1 s2 l1 l2 x1 x2
  norm_num at *
  constructor <;> linarith

/-- Even where rounding may exchange the formulas the result is off by less than 0.02 dB. -/
theorem aknfe_round_any (R : Rounding α) {v : α} (hf : R.fin v) (h : R.val v ≤ 1e40) :
    ∃ a b, aknfe v = .ok a ∧ aknfe (R.val v) = .ok b ∧ Near R a b 0.02 := by
  by_cases hc : 1e-14 ≤ |R.val v - 5.76|
  · obtain ⟨a, b, e1, e2, n⟩ := aknfe_round R hf h hc
    exact ⟨a, b, e1, e2, n.mono (by norm_num)⟩
  have hc' : |R.val v - 5.76| ≤ 1e-6 := (not_le.1 hc).le.trans (by norm_num)
  have hb := abs_le.1 hc'
  obtain ⟨a1, b1, e1, e2, n1⟩ := knife_low R hf (by norm_num at *; linarith)
  obtain ⟨a2, b2, e3, e4, n2⟩ := knife_high R hf (by norm_num at *; linarith) h
  have g := knife_gap hc' e2 e4
  unfold aknfe
  have far1 : Near R a1 b2 0.02 := by
    refine ⟨n1.fin, (abs_sub_le _ b1 _).trans (le_trans (add_le_add n1.err g) (by norm_num))⟩
  have far2 : Near R a2 b1 0.02 := by
    refine ⟨n2.fin, (abs_sub_le _ b2 _).trans (le_trans (add_le_add n2.err ((abs_sub_comm b2 b1).trans_le g)) (by norm_num))⟩
  by_cases k : R.val v < 5.76 <;> by_cases c : v < (5.76 : α)
  · rw [if_pos c, if_pos k]; exact ⟨a1, b1, e1, e2, n1.mono (by norm_num)⟩
  · rw [if_neg c, if_pos k]; exact ⟨a2, b1, e3, e2, far2⟩
  · rw [if_pos c, if_neg k]; exact ⟨a1, b2, e1, e4, far1⟩
  · rw [if_neg c, if_neg k]; exact ⟨a2, b2, e3, e4, n2.mono (by norm_num)⟩

/-! ### Smooth earth -/

/-- The cube by `**`. -/
theorem NB.cube {a : α} {x X Z e g : ℝ} (h : NB R a x X e) (hX : X + e ≤ 1e10) (hZ : X * X * X ≤ Z)
    (hg : 3 * X * X * e + 3 * X * e * e + e * e * e + 3e-15 * ((X + e) * (X + e) * (X + e)) + 1e-90 ≤ g) : NB R (npow a 3) (x ^ 3) Z g := by
  have h0 : 0 ≤ X := (abs_nonneg _).trans h.bound
  have e0 := h.nonneg
  have s := h.sq (Z := X * X) (g := X * e + X * e + e * e + 1e-15 * ((X + e) * (X + e)) + 1e-100) le_rfl (hX.trans (by norm_num)) le_rfl
  have b2 : (X + e) * (X + e) ≤ 1e10 * 1e10 := mul_le_mul hX hX (by linarith) (by norm_num)
  have b3 : (X + e) * (X + e) * (X + e) ≤ 1e10 * 1e10 * 1e10 := mul_le_mul b2 hX (by linarith) (by norm_num)
  have p2 : 0 ≤ (X + e) * (X + e) := by positivity
  have p3 : 0 ≤ (X + e) * (X + e) * (X + e) := by positivity
  have m := s.mul h hZ (g := g) (by
    have : X * X + (X * e + X * e + e * e + 1e-15 * ((X + e) * (X + e)) + 1e-100) = (X + e) * (X + e) * (1 + 1e-15) + 1e-100 := by ring
    rw [this, add_mul]
    norm_num at *
    nlinarith) (by
    have : X * X + (X * e + X * e + e * e + 1e-15 * ((X + e) * (X + e)) + 1e-100) = (X + e) * (X + e) * (1 + 1e-15) + 1e-100 := by ring
    rw [this]
    norm_num at *
    nlinarith)
  rw [pow_succ]
  exact m

theorem lit_117 (R : Rounding α) : R.fin (117.0 : α) ∧ R.val (117.0 : α) = 117.0 :=
  Near.lit_int R (m := 1170) (s := true) (k := 1) 117 (by norm_num) (by norm_num)

theorem log_round (R : Rounding α) {x : α} (hf : R.fin x) (h1 : 1e-40 ≤ R.val x) (h2 : R.val x ≤ 1e40) :
    npLog x = .ok (PyNum.log x) ∧ NB R (PyNum.log x) (Real.log (R.val x)) 100 3e-13 :=
  RL.log (RL.self hf h1 h2) (by norm_num) (by norm_num)

/-- Beyond 200. -/
theorem fht_far (R : Rounding α) {x pk : α} (pk' : ℝ) (hf : R.fin x) (h1 : 200 ≤ R.val x) (h2 : R.val x ≤ 1e6) :
    ∃ a b, fht x pk = .ok a ∧ fht (R.val x) pk' = .ok b ∧ Near R a b 2e-8 := by
  have hp : 0 < R.val x := by linarith
  obtain ⟨t1, t2⟩ := Near.lit_int R (m := 2000) (s := true) (k := 1) 200 (by norm_num) (by norm_num)
  obtain ⟨t3, t4⟩ := Near.lit_int R (m := 20000) (s := true) (k := 1) 2000 (by norm_num) (by norm_num)
  have c1 : ¬ x < (200.0 : α) := by rw [R.lt x _ hf t1, t2]; norm_num; exact h1
  have c1' : ¬ R.val x < 200.0 := by norm_num; exact h1
  have c2 : x < (2000.0 : α) ↔ R.val x < 2000.0 := by rw [R.lt x _ hf t3, t4]
  obtain ⟨e, n⟩ := log_round R hf (by norm_num at *; linarith) (by norm_num at *; linarith)
  unfold fht
  rw [if_neg c1, if_neg c1', e, ok_bind, npLog_ok hp, ok_bind]
  dsimp only
  have l1 : NB R (0.05751 : α) (0.05751 : ℝ) 0.05751 6e-17 := NB.lit R (by norm_num) (by norm_num) (by norm_num)
  have l2 : NB R (4.343 : α) (4.343 : ℝ) 5 6e-15 := NB.lit R (by norm_num) (by norm_num) (by norm_num)
  have m2 : NB R (4.343 * PyNum.log x) (4.343 * Real.log (R.val x)) 500 4e-12 := l2.mul n (by norm_num) (by norm_num) (by norm_num)
  by_cases k : R.val x < 2000.0
  · rw [if_pos (c2.2 k), if_pos k]
    have hx : NB R x (R.val x) 2000 0 := NB.self hf (by rw [abs_of_pos hp]; norm_num at *; linarith)
    have m1 : NB R (0.05751 * x) (0.05751 * R.val x) 116 3e-13 := l1.mul hx (by norm_num) (by norm_num) (by norm_num)
    have f : NB R (0.05751 * x - 4.343 * PyNum.log x) (0.05751 * R.val x - 4.343 * Real.log (R.val x)) 700 6e-12 := m1.sub m2 (by norm_num) (by norm_num) (by norm_num)
    have l3 : NB R (0.0134 : α) (0.0134 : ℝ) 0.0134 2e-17 := NB.lit R (by norm_num) (by norm_num) (by norm_num)
    have l4 : NB R (0.005 : α) (0.005 : ℝ) 0.005 6e-18 := NB.lit R (by norm_num) (by norm_num) (by norm_num)
    have l5 : NB R (17.372 : α) (17.372 : ℝ) 18 2e-14 := NB.lit R (by norm_num) (by norm_num) (by norm_num)
    have l6 : NB R (117.0 : α) (117.0 : ℝ) 117 0 := ⟨Near.of_eq (lit_117 R).1 (lit_117 R).2, by norm_num⟩
    have o1 := Near.lit_int R (m := 10) (s := true) (k := 1) 1 (by norm_num) (by norm_num)
    have l7 : NB R (1.0 : α) (1.0 : ℝ) 1 0 := ⟨Near.of_eq o1.1 o1.2, by norm_num⟩
    have m3 : NB R (0.0134 * x) (0.0134 * R.val x) 27 7e-14 := l3.mul hx (by norm_num) (by norm_num) (by norm_num)
    have m4 : NB R (-0.005 * x) (-0.005 * R.val x) 10 3e-14 := l4.neg.mul hx (by norm_num) (by norm_num) (by norm_num)
    have x1 : Real.exp (-0.005 * R.val x) ≤ 1 := Real.exp_le_one_iff.2 (by norm_num; linarith)
    have x2 : NB R (PyNum.exp (-0.005 * x)) (Real.exp (-0.005 * R.val x)) 1 7e-14 :=
      ⟨m4.toNear.exp (M := 1) x1 (by norm_num) (by norm_num) (by norm_num), by rw [abs_of_pos (Real.exp_pos _)]; exact x1⟩
    have m5 : NB R (0.0134 * x * PyNum.exp (-0.005 * x)) (0.0134 * R.val x * Real.exp (-0.005 * R.val x)) 27 3e-12 := m3.mul x2 (by norm_num) (by norm_num) (by norm_num)
    have m6 : NB R (17.372 * PyNum.log x) (17.372 * Real.log (R.val x)) 1800 1e-11 := l5.mul n (by norm_num) (by norm_num) (by norm_num)
    have s1 : NB R (17.372 * PyNum.log x - 117.0) (17.372 * Real.log (R.val x) - 117.0) 2000 2e-11 := m6.sub l6 (by norm_num) (by norm_num) (by norm_num)
    have s2 : NB R (1.0 - 0.0134 * x * PyNum.exp (-0.005 * x)) (1.0 - 0.0134 * R.val x * Real.exp (-0.005 * R.val x)) 28 4e-12 := l7.sub m5 (by norm_num) (by norm_num) (by norm_num)
    have s3 : NB R _ _ 2e4 4e-9 := s2.mul f (by norm_num) (by norm_num) (by norm_num)
    have s4 : NB R _ _ 6e4 8e-9 := m5.mul s1 (by norm_num) (by norm_num) (by norm_num)
    rw [pure_ok, pure_ok]
    exact ⟨_, _, rfl, rfl, (s3.add s4 (Z := 1e5) (g := 2e-8) (by norm_num) (by norm_num) (by norm_num)).toNear⟩
  · rw [if_neg (mt c2.1 k), if_neg k, pure_ok, pure_ok]
    have hx : NB R x (R.val x) 1e6 0 := NB.self hf (by rw [abs_of_pos hp]; exact h2)
    have m1 : NB R (0.05751 * x) (0.05751 * R.val x) 57510 2e-10 := l1.mul hx (by norm_num) (by norm_num) (by norm_num)
    exact ⟨_, _, rfl, rfl, (m1.sub m2 (Z := 6e4) (g := 2e-8) (by norm_num) (by norm_num) (by norm_num)).toNear⟩

theorem log_pk {p : ℝ} (h1 : 0.9e-5 ≤ p) (h2 : p ≤ 1e4) : |Real.log p| ≤ 12 := by
  have e1 : (2.7 : ℝ) ≤ Real.exp 1 := by have := Real.exp_one_gt_d9; norm_num at *; linarith
  have e2 : (2.7 : ℝ) ^ 12 ≤ Real.exp 12 := by
    rw [show (12 : ℝ) = (12 : ℕ) * 1 by norm_num, Real.exp_nat_mul]
    exact pow_le_pow_left₀ (by norm_num) e1 12
  have hp : 0 < p := lt_of_lt_of_le (by norm_num) h1
  rw [abs_le]
  constructor
  · rw [Real.le_log_iff_exp_le hp, Real.exp_neg]
    exact (inv_anti₀ (by norm_num) e2).trans (le_trans (by norm_num) h1)
  · rw [Real.log_le_iff_le_exp hp]
    exact h2.trans (le_trans (by norm_num) e2)

/-- Below 200, away from the lines where the formulas change. -/
theorem fht_near (R : Rounding α) {x pk : α} (hx : R.fin x) (h1 : -200 ≤ R.val x) (h2 : R.val x < 200) (hk : R.fin pk) (k1 : 1e-40 ≤ R.val pk)
    (k2 : R.val pk ≤ 1e4) (c1 : 1e-19 ≤ |R.val pk - 1e-5|) (c2 : 1e-5 ≤ R.val pk → 1e-8 ≤ |R.val x * (-Real.log (R.val pk)) ^ 3 - 5495|) :
    ∃ a b, fht x pk = .ok a ∧ fht (R.val x) (R.val pk) = .ok b ∧ Near R a b 2e-8 := by
  have kp : 0 < R.val pk := lt_of_lt_of_le (by norm_num) k1
  have hx0 : |R.val x| ≤ 200 := abs_le.2 ⟨h1, h2.le⟩
  obtain ⟨t1, t2⟩ := Near.lit_int R (m := 2000) (s := true) (k := 1) 200 (by norm_num) (by norm_num)
  obtain ⟨o1, o2⟩ := Near.lit_int R (m := 10) (s := true) (k := 1) 1 (by norm_num) (by norm_num)
  obtain ⟨u1, u2⟩ := Near.lit_int R (m := 54950) (s := true) (k := 1) 5495 (by norm_num) (by norm_num)
  have d1 : x < (200.0 : α) := by rw [R.lt x _ hx t1, t2]; norm_num; exact h2
  have d1' : R.val x < 200.0 := by norm_num; exact h2
  have d2 : (1.0 : α) < x ↔ 1.0 < R.val x := by rw [R.lt _ x o1 hx, o2]
  obtain ⟨e, n⟩ := log_round R hk k1 (k2.trans (by norm_num))
  have lt : NB R (1e-5 : α) (1e-5 : ℝ) 1e-5 2e-20 := NB.lit R (by norm_num) (by norm_num) (by norm_num)
  have lte := abs_le.1 lt.err
  have d3 : pk < (1e-5 : α) ↔ R.val pk < 1e-5 := by
    rw [R.lt pk _ hk lt.fin]
    rcases lt_or_ge (R.val pk) 1e-5 with k | k
    · rw [abs_of_neg (by linarith)] at c1
      exact ⟨fun _ => k, fun _ => by clear c2; norm_num at *; linarith [lte.1]⟩
    · rw [abs_of_nonneg (by linarith)] at c1
      refine ⟨fun h => ?_, fun h => absurd h (not_lt.2 k)⟩
      exfalso
      clear c2
      norm_num at *
      linarith [lte.2]
  have l5 : NB R (17.372 : α) (17.372 : ℝ) 18 2e-14 := NB.lit R (by norm_num) (by norm_num) (by norm_num)
  have l6 : NB R (117.0 : α) (117.0 : ℝ) 117 0 := ⟨Near.of_eq (lit_117 R).1 (lit_117 R).2, by norm_num⟩
  -- the logarithm for values that are not tiny
  have big : 1e-5 ≤ R.val pk → NB R (-PyNum.log pk) (-Real.log (R.val pk)) 12 2e-14 := by
    intro k
    have b := log_pk (by norm_num at *; linarith) k2
    obtain ⟨q, -⟩ := (Near.self hk).log (m := R.val pk) (M := 12) (g := 2e-14) le_rfl kp (by simpa using b) (by simp; norm_num)
    exact (⟨q, b⟩ : NB R _ _ _ _).neg
  have d4 : (pk < (1e-5 : α) ∨ (5495.0 : α) < x * npow (-PyNum.log pk) 3) ↔
      (R.val pk < 1e-5 ∨ 5495.0 < R.val x * (-Real.log (R.val pk)) ^ 3) := by
    rw [d3]
    rcases lt_or_ge (R.val pk) 1e-5 with k | k
    · simp only [k, true_or]
    have w3 : NB R (npow (-PyNum.log pk) 3) ((-Real.log (R.val pk)) ^ 3) 1728 2e-11 := NB.cube (big k) (by norm_num) (by norm_num) (by norm_num)
    have p : NB R (x * npow (-PyNum.log pk) 3) (R.val x * (-Real.log (R.val pk)) ^ 3) 4e5 5e-9 :=
      (NB.self hx hx0).mul w3 (by norm_num) (by norm_num) (by norm_num)
    have pe := abs_le.1 p.err
    have c := c2 k
    rw [R.lt _ _ u1 p.fin, u2]
    simp only [not_lt.2 k, false_or]
    generalize R.val (x * npow (-PyNum.log pk) 3) = u at *
    generalize R.val x * (-Real.log (R.val pk)) ^ 3 = v at *
    clear * - pe c
    rcases lt_or_ge v 5495 with q | q
    · rw [abs_of_neg (by linarith)] at c
      norm_num at *
      constructor
      · intro; linarith [pe.2]
      · intro; linarith
    · rw [abs_of_nonneg (by linarith)] at c
      norm_num at *
      constructor
      · intro; linarith
      · intro; linarith [pe.1]
  unfold fht
  rw [if_pos d1, if_pos d1', e, ok_bind, npLog_ok kp, ok_bind]
  simp only [npow_real]
  by_cases k : R.val pk < 1e-5 ∨ 5495.0 < R.val x * (-Real.log (R.val pk)) ^ 3
  · rw [if_pos (d4.2 k), if_pos k]
    by_cases k' : 1.0 < R.val x
    · rw [if_pos (d2.2 k'), if_pos k']
      have xp : 0 < R.val x := by norm_num at k'; linarith
      obtain ⟨e', n'⟩ := log_round R hx (by norm_num at k' ⊢; linarith) (by norm_num; linarith)
      rw [e', ok_bind, npLog_ok xp, ok_bind, pure_ok, pure_ok]
      have m6 : NB R (17.372 * PyNum.log x) (17.372 * Real.log (R.val x)) 1800 1e-11 := l5.mul n' (by norm_num) (by norm_num) (by norm_num)
      exact ⟨_, _, rfl, rfl, (m6.add l6.neg (Z := 2000) (by norm_num) (by norm_num) (by norm_num)).toNear⟩
    · rw [if_neg (mt d2.1 k'), if_neg k', pure_ok, pure_ok]
      exact ⟨_, _, rfl, rfl, l6.neg.toNear.mono (by norm_num)⟩
  · rw [if_neg (mt d4.1 k), if_neg k]
    push Not at k
    have w := big k.1
    have l8 : NB R (2.5e-5 : α) (2.5e-5 : ℝ) 2.5e-5 3e-20 := NB.lit R (by norm_num) (by norm_num) (by norm_num)
    have l9 : NB R (8.686 : α) (8.686 : ℝ) 8.686 9e-15 := NB.lit R (by norm_num) (by norm_num) (by norm_num)
    have l10 : NB R (15.0 : α) (15.0 : ℝ) 15 2e-14 := NB.lit R (by norm_num) (by norm_num) (by norm_num)
    have q : NB R (npow x 2) (R.val x ^ 2) 4e4 5e-11 := (NB.self hx hx0).sq (by norm_num) (by norm_num) (by norm_num)
    have m : NB R (2.5e-5 * npow x 2) (2.5e-5 * R.val x ^ 2) 1 5e-15 := l8.mul q (by norm_num) (by norm_num) (by norm_num)
    have dv : |2.5e-5 * R.val x ^ 2 / R.val pk| ≤ 1e5 := by
      rw [abs_div, abs_of_pos kp, div_le_iff₀ kp]
      refine m.bound.trans ?_
      have := k.1
      norm_num at *
      linarith
    obtain ⟨f, f0⟩ := m.toNear.div (Near.self hk) (m := 1e-5) (M := 2e5) (g := 8e-10) dv (by rw [abs_of_pos kp]; exact k.1) (by norm_num) (by norm_num) (by norm_num) (by norm_num)
    rw [pyDiv_round hk f0, ok_bind, pyDiv_ok kp.ne', ok_bind, pure_ok, pure_ok]
    have m9 : NB R (8.686 * -PyNum.log pk) (8.686 * -Real.log (R.val pk)) 105 4e-13 := l9.mul w (by norm_num) (by norm_num) (by norm_num)
    have s1 : NB R _ _ 2e5 2e-9 := (⟨f, dv⟩ : NB R _ _ 1e5 _).sub m9 (by norm_num) (by norm_num) (by norm_num)
    exact ⟨_, _, rfl, rfl, (s1.sub l10 (Z := 3e5) (by norm_num) (by norm_num) (by norm_num)).toNear⟩

end Itm.Props
