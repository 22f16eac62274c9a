import Verif.Lemmas.RelRound
import Verif.Lemmas.Basic
import Verif.Model.Diffraction
import Verif.Model.Scatter

/-! The elementary attenuation functions in rounding arithmetic. -/

namespace Itm.Props
open Itm Spec
variable {α : Type} [PyNum α] {R : Rounding α}

theorem log_size {x : ℝ} (h1 : 1e-40 ≤ x) (h2 : x ≤ 1e40) : |Real.log x| ≤ 100 := by
  have e1 : (2.7 : ℝ) ≤ Real.exp 1 := by have := Real.exp_one_gt_d9; norm_num at *; linarith
  have e2 : (2.7 : ℝ) ^ 100 ≤ Real.exp 100 := by
    rw [show (100 : ℝ) = (100 : ℕ) * 1 by norm_num, Real.exp_nat_mul]
    exact pow_le_pow_left₀ (by norm_num) e1 100
  have e3 : (1e40 : ℝ) ≤ Real.exp 100 := le_trans (by norm_num) e2
  have hp : 0 < x := lt_of_lt_of_le (by norm_num) h1
  rw [abs_le]
  constructor
  · rw [Real.le_log_iff_exp_le hp, Real.exp_neg]
    exact (inv_anti₀ (by norm_num) e3).trans (le_trans (by norm_num) h1)
  · rw [Real.log_le_iff_le_exp hp]
    exact h2.trans e3

/-- The logarithm of a number known up to a fraction. -/
theorem RL.log {a : α} {x r g : ℝ} (h : RL R a x r) (hr : r ≤ 1 / 10) (hg : 2 * r + 2e-13 ≤ g) :
    npLog a = .ok (PyNum.log a) ∧ NB R (PyNum.log a) (Real.log x) 100 g := by
  have hl := log_size h.lo h.hi
  have hp := h.pos
  have h0 := h.nonneg
  have e : r * x / (x - r * x) ≤ 2 * r := by
    have : 0 < x - r * x := by nlinarith
    rw [div_le_iff₀ this]
    nlinarith [mul_nonneg h0 hp.le]
  obtain ⟨h1, h2⟩ := (⟨h.fin, h.err⟩ : Near R a x (r * x)).log (m := x) (M := 101) (g := g) le_rfl (by nlinarith) (by linarith) (by
    norm_num at *; linarith)
  exact ⟨npLog_round h.fin h2, h1, hl⟩

/-! ### Scatter -/

theorem ahd_form {td a b c : α} {a' b' c' : ℝ} (ha : NB R a a' 200 1e-12) (hb : NB R b b' 4e-4 1e-18) (hc : NB R c c' 5 1e-14)
    (hf : R.fin td) (h1 : 1e-40 ≤ R.val td) (h2 : R.val td ≤ 1e8) :
    (do let l ← npLog td; pure (a + b * td + c * l) : Py α) = .ok (a + b * td + c * PyNum.log td) ∧
    Near R (a + b * td + c * PyNum.log td) (a' + b' * R.val td + c' * Real.log (R.val td)) 1e-9 := by
  have hp : 0 < R.val td := lt_of_lt_of_le (by norm_num) h1
  obtain ⟨l1, l2⟩ := RL.log (g := 3e-13) (RL.self hf h1 (h2.trans (by norm_num))) (by norm_num) (by norm_num)
  have m1 : NB R (b * td) (b' * R.val td) 4e4 2e-10 := hb.mul (NB.self hf (X := 1e8) (by rw [abs_of_pos hp]; exact h2)) (by norm_num) (by norm_num) (by norm_num)
  have m2 : NB R (c * PyNum.log td) (c' * Real.log (R.val td)) 500 1e-11 := hc.mul l2 (by norm_num) (by norm_num) (by norm_num)
  have s1 : NB R (a + b * td) (a' + b' * R.val td) 5e4 3e-10 := ha.add m1 (by norm_num) (by norm_num) (by norm_num)
  have s2 : NB R (a + b * td + c * PyNum.log td) (a' + b' * R.val td + c' * Real.log (R.val td)) 6e4 1e-9 := s1.add m2 (by norm_num) (by norm_num) (by norm_num)
  exact ⟨by rw [l1, ok_bind, pure_ok], s2.toNear⟩

theorem ahd_round (R : Rounding α) {td : α} (hf : R.fin td) (h1 : 1e-40 ≤ R.val td) (h2 : R.val td ≤ 1e8) :
    ∃ v w, ahd td = .ok v ∧ ahd (R.val td) = .ok w ∧ Near R v w 1e-9 := by
  have hp : 0 < R.val td := lt_of_lt_of_le (by norm_num) h1
  obtain ⟨t1, t2⟩ := Near.lit_int R (m := 10) (s := false) (k := 3) 10000 (by norm_num) (by norm_num)
  obtain ⟨t3, t4⟩ := Near.lit_int R (m := 70) (s := false) (k := 3) 70000 (by norm_num) (by norm_num)
  have c1 : (td ≤ (10e3 : α)) ↔ R.val td ≤ 10e3 := by rw [R.le td _ hf t1, t2]
  have c2 : (td ≤ (70e3 : α)) ↔ R.val td ≤ 70e3 := by rw [R.le td _ hf t3, t4]
  unfold ahd
  by_cases k1 : R.val td ≤ 10e3
  · obtain ⟨e, n⟩ := ahd_form (R := R) (a := 133.4) (b := 0.332e-3) (c := -4.343) (a' := 133.4) (b' := 0.332e-3) (c' := -4.343)
      (NB.lit R (by norm_num) (by norm_num) (by norm_num)) (NB.lit R (by norm_num) (by norm_num) (by norm_num))
      (NB.lit R (X := 5) (by norm_num) (by norm_num) (by norm_num)).neg hf h1 h2
    rw [if_pos (c1.2 k1), if_pos k1]
    dsimp only
    rw [e, npLog_ok hp, ok_bind, pure_ok]
    exact ⟨_, _, rfl, rfl, n⟩
  by_cases k2 : R.val td ≤ 70e3
  · obtain ⟨e, n⟩ := ahd_form (R := R) (a := 104.6) (b := 0.212e-3) (c := -1.086) (a' := 104.6) (b' := 0.212e-3) (c' := -1.086)
      (NB.lit R (by norm_num) (by norm_num) (by norm_num)) (NB.lit R (by norm_num) (by norm_num) (by norm_num))
      (NB.lit R (X := 5) (by norm_num) (by norm_num) (by norm_num)).neg hf h1 h2
    rw [if_neg (mt c1.1 k1), if_neg k1, if_pos (c2.2 k2), if_pos k2]
    dsimp only
    rw [e, npLog_ok hp, ok_bind, pure_ok]
    exact ⟨_, _, rfl, rfl, n⟩
  · obtain ⟨e, n⟩ := ahd_form (R := R) (a := 71.8) (b := 0.157e-3) (c := 2.171) (a' := 71.8) (b' := 0.157e-3) (c' := 2.171)
      (NB.lit R (by norm_num) (by norm_num) (by norm_num)) (NB.lit R (by norm_num) (by norm_num) (by norm_num))
      (NB.lit R (X := 5) (by norm_num) (by norm_num) (by norm_num)) hf h1 h2
    rw [if_neg (mt c1.1 k1), if_neg k1, if_neg (mt c2.1 k2), if_neg k2]
    dsimp only
    rw [e, npLog_ok hp, ok_bind, pure_ok]
    exact ⟨_, _, rfl, rfl, n⟩

/-- One row of the tables of `h0f`. -/
theorem row_form {a b x : α} {a' b' x' : ℝ} (ha : R.fin a ∧ R.val a = a') (hb : R.fin b ∧ R.val b = b') (a1 : 25 ≤ a') (a2 : a' ≤ 705) (b1 : 24 ≤ b')
    (b2 : b' ≤ 105) (hx : RL R x x' 5e-15) (h1 : 1e-13 ≤ x') (h2 : x' ≤ 1e13) :
    (do let l ← npLog ((a * x + b) * x + 1.0); pure (4.343 * l) : Py α) = .ok (4.343 * PyNum.log ((a * x + b) * x + 1.0)) ∧
    (do let l ← npLog ((a' * x' + b') * x' + 1.0); pure (4.343 * l) : Py ℝ) = .ok (4.343 * Real.log ((a' * x' + b') * x' + 1.0)) ∧
    NB R (4.343 * PyNum.log ((a * x + b) * x + 1.0)) (4.343 * Real.log ((a' * x' + b') * x' + 1.0)) 500 3e-12 := by
  have o1 := Near.lit_int R (m := 10) (s := true) (k := 1) 1 (by norm_num) (by norm_num)
  have ra : RL R a a' 0 := RL.of_eq ha.1 ha.2 (by norm_num at *; linarith) (by norm_num at *; linarith)
  have rb : RL R b b' 0 := RL.of_eq hb.1 hb.2 (by norm_num at *; linarith) (by norm_num at *; linarith)
  have r1 : RL R (1.0 : α) 1.0 0 := RL.of_eq o1.1 o1.2 (by norm_num) (by norm_num)
  have hx0 := hx.pos
  have ax1 : a' * x' ≤ 705 * 1e13 := mul_le_mul a2 h2 hx0.le (by norm_num)
  have ax0 : 25 * 1e-13 ≤ a' * x' := mul_le_mul a1 h1 (by norm_num) (by linarith)
  have m1 : RL R (a * x) (a' * x') 7e-15 := ra.mul hx (by norm_num) (by norm_num) (le_trans (by norm_num) ax0) (ax1.trans (by norm_num)) (by norm_num)
  have s1 : RL R (a * x + b) (a' * x' + b') 9e-15 := m1.add (rb.mono (by norm_num)) (by norm_num) (by norm_num at *; linarith) (by norm_num)
  have y1 : (a' * x' + b') * x' ≤ 1e16 * 1e13 := mul_le_mul (by norm_num at *; linarith) h2 hx0.le (by norm_num)
  have y0 : 24 * 1e-13 ≤ (a' * x' + b') * x' := mul_le_mul (by norm_num at *; linarith) h1 (by norm_num) (by norm_num at *; linarith)
  have m2 : RL R ((a * x + b) * x) ((a' * x' + b') * x') 2e-14 := s1.mul hx (by norm_num) (by norm_num) (le_trans (by norm_num) y0) (y1.trans (by norm_num)) (by norm_num)
  have s2 : RL R ((a * x + b) * x + 1.0) ((a' * x' + b') * x' + 1.0) 3e-14 := m2.add (r1.mono (by norm_num)) (by norm_num) (by norm_num at *; linarith) (by norm_num)
  obtain ⟨l1, l2⟩ := RL.log (g := 3e-13) s2 (by norm_num) (by norm_num)
  have l : NB R (4.343 : α) (4.343 : ℝ) 4.343 5e-15 := NB.lit R (by norm_num) (by norm_num) (by norm_num)
  refine ⟨by rw [l1, ok_bind, pure_ok], by rw [npLog_ok s2.pos, ok_bind, pure_ok], l.mul l2 (by norm_num) (by norm_num) (by norm_num)⟩

theorem row_round {x : α} {x' : ℝ} (hx : RL R x x' 5e-15) (h1 : 1e-13 ≤ x') (h2 : x' ≤ 1e13) {i : ℤ} (i0 : 0 ≤ i) (i5 : i ≤ 4) :
    ∃ v w, h0fRow i x = .ok v ∧ h0fRow i x' = .ok w ∧ NB R v w 500 3e-12 := by
  have li : ∀ {m : ℕ} {k : ℕ} (n : ℤ), ((OfScientific.ofScientific m true k : ℝ) = n) → |n| ≤ 2 ^ 53 →
    R.fin (OfScientific.ofScientific m true k : α) ∧ R.val (OfScientific.ofScientific m true k : α) = (OfScientific.ofScientific m true k : ℝ) :=
    fun n h h' => Near.lit_int R n h h'
  have key : ∀ {a b : α} {a' b' : ℝ}, pyGet h0fA i = .ok a → pyGet h0fB i = .ok b → pyGet h0fA i = .ok a' → pyGet h0fB i = .ok b' →
      (R.fin a ∧ R.val a = a') → (R.fin b ∧ R.val b = b') → 25 ≤ a' → a' ≤ 705 → 24 ≤ b' → b' ≤ 105 →
      ∃ v w, h0fRow i x = .ok v ∧ h0fRow i x' = .ok w ∧ NB R v w 500 3e-12 := by
    intro a b a' b' e1 e2 e3 e4 ha hb a1 a2 b1 b2
    obtain ⟨f1, f2, f3⟩ := row_form ha hb a1 a2 b1 b2 hx h1 h2
    unfold h0fRow
    rw [e1, ok_bind, e2, ok_bind, e3, ok_bind, e4, ok_bind, f1]
    exact ⟨_, _, rfl, f2, f3⟩
  obtain rfl | rfl | rfl | rfl | rfl : i = 0 ∨ i = 1 ∨ i = 2 ∨ i = 3 ∨ i = 4 := by omega
  · exact key rfl rfl rfl rfl (li 25 (by norm_num) (by norm_num)) (li 24 (by norm_num) (by norm_num)) (by norm_num) (by norm_num) (by norm_num) (by norm_num)
  · exact key rfl rfl rfl rfl (li 80 (by norm_num) (by norm_num)) (li 45 (by norm_num) (by norm_num)) (by norm_num) (by norm_num) (by norm_num) (by norm_num)
  · exact key rfl rfl rfl rfl (li 177 (by norm_num) (by norm_num)) (li 68 (by norm_num) (by norm_num)) (by norm_num) (by norm_num) (by norm_num) (by norm_num)
  · exact key rfl rfl rfl rfl (li 395 (by norm_num) (by norm_num)) (li 80 (by norm_num) (by norm_num)) (by norm_num) (by norm_num) (by norm_num) (by norm_num)
  · exact key rfl rfl rfl rfl (li 705 (by norm_num) (by norm_num)) (li 105 (by norm_num) (by norm_num)) (by norm_num) (by norm_num) (by norm_num) (by norm_num)

theorem RL.inv_sq {r : α} (hf : R.fin r) (h1 : 1e-6 ≤ R.val r) (h2 : R.val r ≤ 1e6) :
    (1.0 : α) /! r = .ok (1.0 / r) ∧ RL R (npow (1.0 / r) 2) ((1.0 / R.val r) ^ 2) 5e-15 ∧ 1e-13 ≤ (1.0 / R.val r) ^ 2 ∧ (1.0 / R.val r) ^ 2 ≤ 1e13 := by
  have hp : 0 < R.val r := lt_of_lt_of_le (by norm_num) h1
  have o1 := Near.lit_int R (m := 10) (s := true) (k := 1) 1 (by norm_num) (by norm_num)
  have r1 : RL R (1.0 : α) 1.0 0 := RL.of_eq o1.1 o1.2 (by norm_num) (by norm_num)
  have q1 : 1e-6 ≤ 1.0 / R.val r := by rw [le_div_iff₀ hp]; norm_num at *; linarith
  have q2 : 1.0 / R.val r ≤ 1e6 := by rw [div_le_iff₀ hp]; norm_num at *; linarith
  have d : RL R (1.0 / r) (1.0 / R.val r) 1.5e-15 := And.left <| r1.div (RL.self hf (by norm_num at *; linarith) (by norm_num at *; linarith)) (by norm_num) (by norm_num)
    (by norm_num at *; linarith) (by norm_num at *; linarith) (by norm_num)
  have s1 : 1e-13 ≤ (1.0 / R.val r) ^ 2 := le_trans (by norm_num) (pow_le_pow_left₀ (by norm_num) q1 2)
  have s2 : (1.0 / R.val r) ^ 2 ≤ 1e13 := le_trans (pow_le_pow_left₀ (le_trans (by norm_num) q1) q2 2) (by norm_num)
  refine ⟨pyDiv_round hf hp.ne', ?_, s1, s2⟩
  have n : NR R (1.0 / r) (1.0 / R.val r) 1e6 1.5e-15 0 := ⟨d.fin, by rw [abs_of_pos d.pos, add_zero]; exact d.err, by rw [abs_of_pos d.pos]; exact q2⟩
  have n2 := n.sq (Z := 1e12) (r' := 4.5e-15) (t' := 1e-99) (by norm_num) le_rfl (by norm_num) (by norm_num) (by norm_num) (by norm_num) (by norm_num)
  refine ⟨n2.fin, n2.err.trans ?_, by norm_num at *; linarith, by norm_num at *; linarith⟩
  rw [abs_of_pos (by positivity)]
  norm_num at *
  linarith

theorem h0f_round (R : Rounding α) {r et : α} (hf : R.fin r) (h1 : 1e-6 ≤ R.val r) (h2 : R.val r ≤ 1e6) (he : R.fin et) :
    ∃ v w, h0f r et = .ok v ∧ h0f (R.val r) (R.val et) = .ok w ∧ Near R v w 1e-10 := by
  have hp : 0 < R.val r := lt_of_lt_of_le (by norm_num) h1
  obtain ⟨d, hx, x1, x2⟩ := RL.inv_sq hf h1 h2
  obtain ⟨f0, v0⟩ := fin_zero R
  have z0 : pyEq (0.0 : α) 0.0 := by rw [pyEq_round f0 f0]
  have z1 : pyEq (0.0 : ℝ) 0.0 := by rw [pyEq_real]
  unfold h0f
  simp only [R.floor et he, rfloor]
  set n : ℤ := ⌊R.val et⌋ with hn
  clear_value n
  by_cases k1 : n ≤ 0
  · rw [if_pos k1, if_pos k1]
    dsimp only
    rw [d, ok_bind, pyDiv_ok hp.ne', ok_bind]
    simp only [npow_real]
    obtain ⟨v, w, e1, e2, nb⟩ := row_round hx x1 x2 (i := 1 - 1) (by norm_num) (by norm_num)
    rw [e1, e2, ok_bind, ok_bind, if_neg (not_not.2 z0), if_neg (not_not.2 z1)]
    exact ⟨v, w, rfl, rfl, nb.toNear.mono (by norm_num)⟩
  by_cases k5 : 5 ≤ n
  · rw [if_neg k1, if_neg k1, if_pos k5, if_pos k5]
    dsimp only
    rw [d, ok_bind, pyDiv_ok hp.ne', ok_bind]
    simp only [npow_real]
    obtain ⟨v, w, e1, e2, nb⟩ := row_round hx x1 x2 (i := 5 - 1) (by norm_num) (by norm_num)
    rw [e1, e2, ok_bind, ok_bind, if_neg (not_not.2 z0), if_neg (not_not.2 z1)]
    exact ⟨v, w, rfl, rfl, nb.toNear.mono (by norm_num)⟩
  rw [if_neg k1, if_neg k1, if_neg k5, if_neg k5]
  dsimp only
  rw [d, ok_bind, pyDiv_ok hp.ne', ok_bind]
  simp only [npow_real]
  have b1 : (n : ℝ) ≤ R.val et := by rw [hn]; exact Int.floor_le _
  have b2 : R.val et < n + 1 := by rw [hn]; exact Int.lt_floor_add_one _
  have n1 : (1 : ℝ) ≤ n := by exact_mod_cast (by omega : 1 ≤ n)
  have n4 : (n : ℝ) ≤ 4 := by exact_mod_cast (by omega : n ≤ 4)
  obtain ⟨v, w, e1, e2, nb⟩ := row_round hx x1 x2 (i := n - 1) (by omega) (by omega)
  obtain ⟨v', w', e1', e2', nb'⟩ := row_round hx x1 x2 (i := n) (by omega) (by omega)
  rw [e1, e2, ok_bind, ok_bind, e1', e2', ok_bind, ok_bind, pure_ok, pure_ok, rofInt]
  obtain ⟨fn, vn⟩ := R.ofInt n (le_roundBig (by rw [abs_of_nonneg (by linarith)]; exact n4.trans (by norm_num)))
  have ex : R.rnd n = n := by
    have := R.exact n 0 (by rw [abs_of_nonneg (by omega)]; omega) (by norm_num) (by norm_num)
    simpa using this
  rw [ex] at vn
  set q' : ℝ := R.val et - n with hq'
  have q0 : 0 ≤ q' := by linarith
  have q1 : q' ≤ 1 := by linarith
  obtain ⟨fq, vq⟩ := R.sub et (PyNum.ofInt n) he fn (by rw [vn]; exact le_roundBig (by rw [← hq', abs_of_nonneg q0]; exact q1.trans (by norm_num)))
  rw [vn, ← hq'] at vq
  have nq : NB R (et - PyNum.ofInt n) q' 1 2e-15 := by
    refine ⟨⟨fq, ?_⟩, by rw [abs_of_nonneg q0]; exact q1⟩
    rw [vq]
    exact (Near.rnd_err R (M := 1) (by rw [abs_of_nonneg q0]; exact q1) (by norm_num)).trans (by norm_num)
  have o1 := Near.lit_int R (m := 10) (s := true) (k := 1) 1 (by norm_num) (by norm_num)
  have no : NB R (1.0 : α) (1.0 : ℝ) 1 0 := ⟨Near.of_eq o1.1 o1.2, by norm_num⟩
  have g1 : pyEq (et - PyNum.ofInt n) 0.0 ↔ R.rnd q' = 0 := by rw [pyEq_round fq f0, v0, vq]
  have g2 : pyEq q' 0.0 ↔ q' = 0.0 := pyEq_real
  by_cases k : R.rnd q' = 0
  · -- the fraction is zero or underflows
    have tiny : q' ≤ 1e-90 := by
      have := R.close q' (le_roundBig (by rw [abs_of_nonneg q0]; exact q1.trans (by norm_num)))
      rw [k, zero_sub, abs_neg, abs_of_nonneg q0] at this
      have a := mul_le_mul_of_nonneg_right roundEps_le q0
      have b := roundTiny_le
      norm_num at a b ⊢
      linarith
    rw [if_neg (not_not.2 (g1.2 k))]
    have hb := nb.bound
    have hb' := nb'.bound
    by_cases kk : pyEq q' 0.0
    · rw [if_neg (not_not.2 kk)]
      exact ⟨v, w, rfl, rfl, nb.toNear.mono (by norm_num)⟩
    · rw [if_pos kk]
      refine ⟨v, _, rfl, rfl, nb.fin, ?_⟩
      have e : R.val v - ((1.0 - q') * w + q' * w') = (R.val v - w) + q' * (w - w') := by norm_num; ring
      rw [e]
      have a1 : |q' * (w - w')| ≤ 1e-90 * 1000 := by
        rw [abs_mul, abs_of_nonneg q0]
        exact mul_le_mul tiny ((abs_sub w w').trans (by linarith)) (abs_nonneg _) (by norm_num)
      have a2 := abs_add_le (R.val v - w) (q' * (w - w'))
      have a3 := nb.err
      clear * - a1 a2 a3
      norm_num at *
      linarith
  · have k' : ¬ q' = 0.0 := fun h => k (by rw [h, zero_lit]; exact rnd_zero R)
    rw [if_pos (mt g1.1 k), if_pos (mt g2.1 k')]
    have s1 : NB R (1.0 - (et - PyNum.ofInt n)) (1.0 - q') 2 5e-15 := no.sub nq (by norm_num) (by norm_num) (by norm_num)
    have m1 : NB R ((1.0 - (et - PyNum.ofInt n)) * v) ((1.0 - q') * w) 1000 1e-11 := s1.mul nb (by norm_num) (by norm_num) (by norm_num)
    have m2 : NB R ((et - PyNum.ofInt n) * v') (q' * w') 500 5e-12 := nq.mul nb' (by norm_num) (by norm_num) (by norm_num)
    exact ⟨_, _, rfl, rfl, (m1.add m2 (Z := 1500) (g := 1e-10) (by norm_num) (by norm_num) (by norm_num)).toNear⟩

end Itm.Props
