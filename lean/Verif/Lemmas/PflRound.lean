import Verif.Lemmas.RelRound
import Verif.Lemmas.PflReal
import Verif.Props.C89

/-! `qlrpfl` before the call of `lrprop`, with rounding. -/

namespace Itm
open Itm.Spec Itm.Props
variable {α : Type} [PyNum α]

theorem exp_lower {x : ℝ} (h : -17.5 ≤ x) : 1e-8 ≤ Real.exp x := by
  have e1 : Real.exp 18 ≤ 1e8 := by
    have : Real.exp 18 = Real.exp 1 ^ 18 := by rw [← Real.exp_nat_mul]; norm_num
    rw [this]
    have h1 : Real.exp 1 ≤ 2.72 := by have := Real.exp_one_lt_d9; norm_num at this ⊢; linarith
    exact (pow_le_pow_left₀ (Real.exp_pos 1).le h1 18).trans (by norm_num)
  have e2 : (1e-8 : ℝ) ≤ Real.exp (-18) := by
    rw [Real.exp_neg]
    refine le_trans ?_ (inv_anti₀ (Real.exp_pos 18) e1)
    norm_num
  exact e2.trans (Real.exp_le_exp.2 (by norm_num at h ⊢; linarith))

/-- Sizes at which the estimates of horizons are evaluated. -/
structure EstSized (R : Rounding α) (he gme dh : α) : Prop where
  fh : R.fin he
  fk : R.fin gme
  fd : R.fin dh
  h1 : 0.5 ≤ R.val he
  h2 : R.val he ≤ 1e30
  k1 : 1e-8 ≤ R.val gme
  k2 : R.val gme ≤ 2.5e-7
  d1 : 0 ≤ R.val dh
  d2 : R.val dh ≤ 3.1e5

theorem EstSized.reach {R : Rounding α} {he gme dh : α} (H : EstSized R he gme dh) :
    2000 ≤ smoothReach (R.val gme) (R.val he) ∧ smoothReach (R.val gme) (R.val he) ≤ 2e19 := by
  obtain ⟨fh, fk, fd, h1, h2, k1, k2, d1, d2⟩ := H
  have k0 : 0 < R.val gme := lt_of_lt_of_le (by norm_num) k1
  unfold smoothReach
  constructor
  · refine Real.le_sqrt_of_sq_le ?_
    rw [le_div_iff₀ k0]
    norm_num at *; linarith
  · refine Real.sqrt_le_iff.2 ⟨by norm_num, ?_⟩
    rw [div_le_iff₀ k0]
    norm_num at *; linarith

theorem EstSized.decay {R : Rounding α} {he gme dh : α} (H : EstSized R he gme dh) :
    √(R.val dh / max (R.val he) 5) ≤ 250 ∧ 1e-8 ≤ Real.exp (-0.07 * √(R.val dh / max (R.val he) 5)) ∧
      Real.exp (-0.07 * √(R.val dh / max (R.val he) 5)) ≤ 1 := by
  obtain ⟨fh, fk, fd, h1, h2, k1, k2, d1, d2⟩ := H
  have m5 : (5 : ℝ) ≤ max (R.val he) 5 := le_max_right _ _
  have b : √(R.val dh / max (R.val he) 5) ≤ 250 := by
    refine Real.sqrt_le_iff.2 ⟨by norm_num, ?_⟩
    rw [div_le_iff₀ (by linarith)]
    norm_num at d2 ⊢; linarith
  have s0 := Real.sqrt_nonneg (R.val dh / max (R.val he) 5)
  generalize √(R.val dh / max (R.val he) 5) = w at *
  refine ⟨b, exp_lower ?_, Real.exp_le_one_iff.2 ?_⟩ <;> norm_num <;> linarith

theorem EstSized.horizon {R : Rounding α} {he gme dh : α} (H : EstSized R he gme dh) :
    2e-5 ≤ roughHorizon (R.val gme) (R.val dh) (R.val he) ∧ roughHorizon (R.val gme) (R.val dh) (R.val he) ≤ 2e19 := by
  obtain ⟨a1, a2⟩ := H.reach
  obtain ⟨-, b1, b2⟩ := H.decay
  unfold roughHorizon
  constructor
  · exact le_trans (by norm_num) (mul_le_mul a1 b1 (by norm_num) (by linarith))
  · exact le_trans (mul_le_mul a2 b2 (by linarith [Real.exp_pos (-0.07 * √(R.val dh / max (R.val he) 5))]) (by norm_num)) (by norm_num)

/-- The horizon distance over a smooth earth. -/
theorem smooth_round (R : Rounding α) {he gme dh : α} (H : EstSized R he gme dh) :
    (2.0 * he) /! gme = .ok (2.0 * he / gme) ∧ mathSqrt (2.0 * he / gme) = .ok (PyNum.sqrt (2.0 * he / gme)) ∧
      RL R (PyNum.sqrt (2.0 * he / gme)) (smoothReach (R.val gme) (R.val he)) 7e-15 := by
  obtain ⟨r1, r2⟩ := H.reach
  obtain ⟨fh, fk, fd, h1, h2, k1, k2, d1, d2⟩ := H
  have k0 : 0 < R.val gme := lt_of_lt_of_le (by norm_num) k1
  obtain ⟨t1, t2⟩ := val_two R (α := α)
  have n2 : RL R (2.0 : α) 2 0 := RL.of_eq t1 t2 (by norm_num) (by norm_num)
  have nh : RL R he (R.val he) 0 := RL.self fh (by norm_num at h1 ⊢; linarith) (by norm_num at h2 ⊢; linarith)
  have nk : RL R gme (R.val gme) 0 := RL.self fk (by norm_num at k1 ⊢; linarith) (by norm_num at k2 ⊢; linarith)
  have n2h := n2.mul nh (t := 1.5e-15) (by norm_num) (by norm_num) (by norm_num at h1 ⊢; linarith) (by norm_num at h2 ⊢; linarith) (by norm_num)
  obtain ⟨nq, eq⟩ := n2h.div nk (t := 3e-15) (by norm_num) (by norm_num) (by rw [le_div_iff₀ k0]; norm_num at *; linarith)
    (by rw [div_le_iff₀ k0]; norm_num at *; linarith) (by norm_num)
  obtain ⟨ns, es⟩ := nq.sqrt (t := 7e-15) (by norm_num) (by norm_num)
    (by change _ ≤ smoothReach (R.val gme) (R.val he); norm_num at r1 ⊢; linarith) (by change smoothReach (R.val gme) (R.val he) ≤ _; norm_num at r2 ⊢; linarith)
  exact ⟨eq, es, ns⟩

theorem val_five (R : Rounding α) : R.fin (5.0 : α) ∧ R.val (5.0 : α) = 5 := by
  have := Near.lit_int R (m := 50) (s := true) (k := 1) 5 (by norm_num) (by norm_num)
  exact ⟨this.1, this.2.trans (by norm_num)⟩

/-- The horizon distance over irregular terrain. -/
theorem pflDl_round (R : Rounding α) {he gme dh : α} (H : EstSized R he gme dh) :
    ∃ d, pflDl he gme dh = .ok d ∧ RL R d (roughHorizon (R.val gme) (R.val dh) (R.val he)) 2e-13 := by
  obtain ⟨e1, e2, ns⟩ := smooth_round R H
  obtain ⟨b1, b2, b3⟩ := H.decay
  obtain ⟨c1, c2⟩ := H.horizon
  obtain ⟨fh, fk, fd, h1, h2, k1, k2, d1, d2⟩ := H
  obtain ⟨f5, v5⟩ := val_five R (α := α)
  obtain ⟨fm, vm⟩ := pyMax_val fh f5
  rw [v5] at vm
  have m5 : (5 : ℝ) ≤ max (R.val he) 5 := le_max_right _ _
  have mb : max (R.val he) 5 ≤ 1e30 := max_le h2 (by norm_num)
  have nd : NP R dh (R.val dh) 3.1e5 0 0 := ⟨NR.self fd (by rw [abs_of_nonneg d1]; exact d2), d1, d1⟩
  have nm : NR R (pyMax he 5.0) (max (R.val he) 5) 1e30 0 0 := NR.of_eq fm vm (by rw [abs_of_nonneg (by linarith)]; exact mb)
  obtain ⟨-, nq⟩ := nd.div nm (m := 5) (w := 0) (Z := 6.2e4) (r' := 1e-15) (t' := 1e-100) (by norm_num) m5 le_rfl le_rfl le_rfl (by norm_num) (by norm_num)
    le_rfl (by norm_num) (by norm_num) (by norm_num) (by norm_num)
  obtain ⟨es, nb⟩ := nq.sqrt (w := 1e-50) (Z := 250) (r' := 2.1e-15) (t' := 1.1e-50) (by norm_num) (by norm_num) (by norm_num) (by norm_num) (by norm_num)
    (by norm_num) (by norm_num) (by norm_num)
  have n7 : NR R (-0.07 : α) (-0.07) 0.07 1e-15 1e-100 := (NR.lit R (m := 7) (s := true) (k := 2) (X := 0.07) (by norm_num) (by norm_num)).neg
  have nx := n7.mul nb (Z := 17.5) (r' := 5e-15) (t' := 1e-50) (by norm_num) (by norm_num) (by norm_num) (by norm_num) (by norm_num) (by norm_num) (by norm_num)
    (by norm_num)
  have ne := RL.exp (nx.toNB (g := 9e-14) (by norm_num) (by norm_num)).toNear (t := 1.83e-13) (by norm_num) (b2.trans' (by norm_num)) (b3.trans (by norm_num)) (by norm_num)
  have np := ns.mul ne (t := 2e-13) (by norm_num) (by norm_num) (by change _ ≤ roughHorizon (R.val gme) (R.val dh) (R.val he); norm_num at c1 ⊢; linarith)
    (by change roughHorizon (R.val gme) (R.val dh) (R.val he) ≤ _; norm_num at c2 ⊢; linarith) (by norm_num)
  refine ⟨_, ?_, np⟩
  unfold pflDl
  rw [e1, ok_bind, e2, ok_bind, es, ok_bind, pure_ok]

set_option maxHeartbeats 1000000 in
/-- The horizon angle over irregular terrain. -/
theorem pflThe_round (R : Rounding α) {he gme dh dl : α} (H : EstSized R he gme dh)
    (nl : RL R dl (roughHorizon (R.val gme) (R.val dh) (R.val he)) 2e-13) :
    ∃ t, pflThe he dl gme dh = .ok t ∧ Near R t (roughAngle (R.val gme) (R.val dh) (R.val he))
      (3e-13 * (0.65 * R.val dh / roughHorizon (R.val gme) (R.val dh) (R.val he) + 2 * R.val he / smoothReach (R.val gme) (R.val he))) := by
  obtain ⟨e1, e2, ns⟩ := smooth_round R H
  obtain ⟨a1, a2⟩ := H.reach
  obtain ⟨-, b2, b3⟩ := H.decay
  obtain ⟨fh, fk, fd, h1, h2, k1, k2, d1, d2⟩ := H
  obtain ⟨Q, hQ⟩ : ∃ Q, Q = smoothReach (R.val gme) (R.val he) := ⟨_, rfl⟩
  obtain ⟨D, hD⟩ : ∃ D, D = roughHorizon (R.val gme) (R.val dh) (R.val he) := ⟨_, rfl⟩
  obtain ⟨E, hE⟩ : ∃ E, E = Real.exp (-0.07 * √(R.val dh / max (R.val he) 5)) := ⟨_, rfl⟩
  have eD : D = Q * E := by rw [hD, hQ, hE]; rfl
  have eA : roughAngle (R.val gme) (R.val dh) (R.val he) = (0.65 * R.val dh * (Q / D - 1) - 2 * R.val he) / Q := by rw [hQ, hD]; rfl
  rw [← hQ] at a1 a2 ns
  rw [← hE] at b2 b3
  rw [← hD] at nl
  rw [eA, ← hD, ← hQ]
  obtain ⟨q, hq⟩ : ∃ q, q = PyNum.sqrt (2.0 * he / gme) := ⟨_, rfl⟩
  rw [← hq] at ns e2
  clear hQ hD hE eA
  have Q0 : 0 < Q := by linarith
  have E0 : 0 < E := lt_of_lt_of_le (by norm_num) b2
  have D0 : 0 < D := nl.pos
  obtain ⟨ρ, hρ⟩ : ∃ ρ, ρ = Q / D := ⟨_, rfl⟩
  have ρE : ρ * E = 1 := by rw [hρ, eD]; field_simp
  have ρ1 : 1 ≤ ρ := by rw [hρ, eD, one_le_div (mul_pos Q0 E0)]; exact mul_le_of_le_one_right Q0.le b3
  have ρ2 : ρ ≤ 1e8 := by
    have : ρ * 1e-8 ≤ ρ * E := mul_le_mul_of_nonneg_left b2 (by linarith)
    rw [ρE] at this
    norm_num at this ⊢; linarith
  obtain ⟨nρ, eρ⟩ := ns.div nl (t := 2.1e-13) (by norm_num) (by norm_num) (by rw [← hρ]; norm_num; linarith) (by rw [← hρ]; norm_num at ρ2 ⊢; linarith) (by norm_num)
  rw [← hρ] at nρ ⊢
  obtain ⟨o1, o2⟩ := val_one R (α := α)
  have nρ' : Near R (q / dl) ρ (2.1e-13 * ρ) := ⟨nρ.fin, nρ.err⟩
  have n2 := nρ'.sub (Near.of_eq o1 o2) (M := 1.1 * ρ) (g := 2.2e-13 * ρ) (by rw [abs_of_nonneg (by linarith)]; norm_num; linarith)
    (by norm_num at ρ2 ⊢; linarith) (by norm_num; linarith)
  obtain ⟨A, hA⟩ : ∃ A, A = 0.65 * R.val dh := ⟨_, rfl⟩
  have A0 : 0 ≤ A := by rw [hA]; exact mul_nonneg (by norm_num) d1
  have A1 : A ≤ 2.1e5 := by rw [hA]; norm_num at d2 ⊢; linarith
  have n65 := NR.lit R (α := α) (m := 65) (s := true) (k := 2) (X := 0.65) (by norm_num) (by norm_num)
  have ndh : NR R dh (R.val dh) 3.1e5 0 0 := NR.self fd (by rw [abs_of_nonneg d1]; exact d2)
  have nA := n65.mul ndh (Z := 2.1e5) (r' := 2.1e-15) (t' := 1e-94) (by norm_num) (by norm_num) (by norm_num) (by norm_num) (by norm_num) (by norm_num) (by norm_num)
    (by norm_num)
  rw [← hA] at nA
  have nA' : Near R (0.65 * dh) A (2.1e-15 * A + 1e-94) := ⟨nA.fin, by have := nA.err; rwa [abs_of_nonneg A0] at this⟩
  obtain ⟨P, hP⟩ : ∃ P, P = A * ρ := ⟨_, rfl⟩
  have P0 : 0 ≤ P := by rw [hP]; exact mul_nonneg A0 (by linarith)
  have P1 : P ≤ 2.1e13 := by rw [hP]; exact (mul_le_mul A1 ρ2 (by linarith) (by norm_num)).trans (by norm_num)
  have n4 := nA'.mul n2 (X := A) (Y := ρ) (by rw [abs_of_nonneg A0]) (by rw [abs_of_nonneg (by linarith)]; linarith) (M := 1.1 * P + 1e-80) (g := 2.3e-13 * P + 1e-79)
    (by
      have : (A + (2.1e-15 * A + 1e-94)) * (ρ + 2.2e-13 * ρ) = (1 + 2.1e-15) * (1 + 2.2e-13) * P + 1e-94 * (1 + 2.2e-13) * ρ := by rw [hP]; ring
      rw [this]
      norm_num at ρ2 ⊢; linarith) (by norm_num at P1 ⊢; linarith)
    (by
      have : A * (2.2e-13 * ρ) + ρ * (2.1e-15 * A + 1e-94) + (2.1e-15 * A + 1e-94) * (2.2e-13 * ρ) =
        (2.2e-13 + 2.1e-15 + 2.1e-15 * 2.2e-13) * P + (1e-94 + 1e-94 * 2.2e-13) * ρ := by rw [hP]; ring
      rw [this]
      norm_num at ρ2 ⊢; linarith)
  obtain ⟨t1, t2⟩ := val_two R (α := α)
  obtain ⟨h, hh⟩ : ∃ h, h = R.val he := ⟨_, rfl⟩
  have nh : Near R he h 0 := Near.of_eq fh hh.symm
  rw [← hh] at h1 h2 ⊢
  have h0 : 0 < h := by norm_num at h1; linarith
  have n5 := (Near.of_eq t1 t2).mul nh (X := 2) (Y := h) (by norm_num) (by rw [abs_of_pos h0]) (M := 2 * h) (g := 3e-15 * h) (by linarith)
    (by norm_num at h2 ⊢; linarith) (by norm_num at h1 ⊢; linarith)
  have PAρ : A * (ρ - 1) = P - A := by rw [hP]; ring
  have AP : A ≤ P := by rw [hP]; exact le_mul_of_one_le_right A0 ρ1
  have n6 := n4.sub n5 (M := 1.1 * (P + 2 * h)) (g := 2.4e-13 * (P + 2 * h))
    (by
      rw [PAρ]
      have : |P - A - 2 * h| ≤ P + 2 * h := by rw [abs_le]; constructor <;> linarith
      generalize |P - A - 2 * h| = w at this ⊢
      norm_num at h1 ⊢; linarith) (by norm_num at P1 h2 ⊢; linarith) (by norm_num at h1 ⊢; linarith)
  obtain ⟨W, hW⟩ : ∃ W, W = P + 2 * h := ⟨_, rfl⟩
  have W1 : 1 ≤ W := by norm_num at h1; rw [hW]; linarith
  have W2 : W ≤ 1e31 := by rw [hW]; norm_num at P1 h2 ⊢; linarith
  rw [← hW] at n6
  obtain ⟨y, hy⟩ : ∃ y, y = W / Q := ⟨_, rfl⟩
  have y0 : 0 < y := by rw [hy]; exact div_pos (by linarith) Q0
  have yW : y * Q = W := by rw [hy]; field_simp
  have y2 : y ≤ 1e31 := by rw [hy, div_le_iff₀ Q0]; norm_num at W2 ⊢; linarith
  have y1 : 1e-20 ≤ y := by rw [hy, le_div_iff₀ Q0]; norm_num at a2 ⊢; linarith
  have bnd : (2.4e-13 * W + y * (7e-15 * Q)) / (Q - 7e-15 * Q) ≤ 2.5e-13 * y := by
    rw [div_le_iff₀ (by norm_num; linarith), ← yW]
    have : 0 < y * Q := mul_pos y0 Q0
    have e : 2.5e-13 * y * (Q - 7e-15 * Q) = 2.5e-13 * (1 - 7e-15) * (y * Q) := by ring
    have e' : 2.4e-13 * (y * Q) + y * (7e-15 * Q) = (2.4e-13 + 7e-15) * (y * Q) := by ring
    rw [e, e']
    norm_num; linarith
  have nq : Near R q Q (7e-15 * Q) := ⟨ns.fin, ns.err⟩
  obtain ⟨n7, hq0⟩ := n6.div nq (Q := y) (m := Q) (M := 2 * y) (g := 3e-13 * y)
    (by
      rw [PAρ, abs_div, abs_of_pos Q0, hy]
      refine div_le_div_of_nonneg_right ?_ Q0.le
      rw [abs_le, hW]; constructor <;> linarith)
    (le_abs_self Q) (by norm_num; linarith)
    (by refine (add_le_add_right bnd _).trans ?_; norm_num; linarith) (by norm_num at y2 ⊢; linarith)
    (by
      have : (2.5e-13 : ℝ) * y + 1e-15 * (2 * y) + 1e-100 ≤ 3e-13 * y := by norm_num at y1 ⊢; linarith
      linarith)
  have ey : A / D + 2 * h / Q = y := by
    rw [hy, hW, hP, hρ]; field_simp
  rw [← hA, ey]
  refine ⟨_, ?_, n7⟩
  unfold pflThe
  rw [e1, ok_bind, e2, ok_bind, eρ, ok_bind, pyDiv_round ns.fin hq0]

/-- The effective height of a terminal. -/
theorem he_round (R : Rounding α) {hg z za : α} {c : ℝ} (fh : R.fin hg) (h1 : 0.5 ≤ R.val hg) (h2 : R.val hg ≤ 1e4) (fz : R.fin z)
    (bz : |R.val z| ≤ 1e4) (nz : Near R za c 6e-7) (bc : |c| ≤ 3.5e7) :
    Near R (hg + pyMax (z - za) 0.0) (R.val hg + max (R.val z - c) 0) 1e-6 ∧ R.val hg ≤ R.val (hg + pyMax (z - za) 0.0) ∧
      R.val (hg + pyMax (z - za) 0.0) ≤ 4e7 := by
  obtain ⟨z0f, z0v⟩ := fin_zero R
  have bs : |R.val z - c| ≤ 3.51e7 := (abs_sub _ _).trans (by norm_num at *; linarith)
  have ns := (Near.self fz).sub nz (M := 3.52e7) (g := 6.4e-7) (by norm_num at bs ⊢; linarith) (by norm_num) (by norm_num)
  have nm := pyMax_round ns (Near.of_eq z0f z0v)
  rw [max_eq_left (by norm_num : (0 : ℝ) ≤ 6.4e-7)] at nm
  have m0 : 0 ≤ max (R.val z - c) 0 := le_max_right _ _
  have m1 : max (R.val z - c) 0 ≤ 3.51e7 := max_le (by have := (abs_le.1 bs).2; linarith) (by norm_num)
  generalize max (R.val z - c) 0 = w at nm m0 m1 ⊢
  have na := (Near.self fh).add nm (M := 3.6e7) (g := 1e-6) (by rw [abs_of_nonneg (by norm_num at h1; linarith)]; norm_num at h2 m1 ⊢; linarith) (by norm_num) (by norm_num)
  obtain ⟨fm, vm⟩ := pyMax_val ns.fin z0f
  have v0 : 0 ≤ R.val (pyMax (z - za) 0.0) := by rw [vm, z0v]; exact le_max_right _ _
  refine ⟨na, ?_, ?_⟩
  · have vb := nm.le
    have e := (R.add hg _ fh fm (le_roundBig (by rw [abs_of_nonneg (by norm_num at h1; linarith)]; norm_num at h2 m1 vb ⊢; linarith))).2
    rw [e]
    have := R.mono (show R.val hg ≤ R.val hg + R.val (pyMax (z - za) 0.0) by linarith)
    rwa [R.val_rnd hg fh] at this
  · have := na.le
    norm_num at this h2 m1 ⊢; linarith

/-- The line fitted to a window, with sizes. -/
theorem line_round (R : Rounding α) {p : Pfl α} {x1 x2 : α} {n : ℕ} (H : SizedWindow R p n x1 x2)
    (h : R.val x1 / R.val p.xi + 1e-10 ≤ R.val x2 / R.val p.xi) :
    ∃ (u v c s : ℝ) (z0 zn : α), 0 ≤ u ∧ v ≤ n ∧ u < v ∧ |u - R.val x1 / R.val p.xi| ≤ 1e-11 ∧ |v - R.val x2 / R.val p.xi| ≤ 1e-11 ∧
      zlsq1 p x1 x2 = .ok (z0, zn) ∧ BestLine (fun j => (p.z.map R.val).getD j 0) ⌊u⌋₊ (⌈v⌉₊ - ⌊u⌋₊) c s ∧
      Near R z0 c 6e-7 ∧ Near R zn (c + s * n) 6e-7 ∧ |c| ≤ 3.5e7 ∧ |c + s * n| ≤ 3.5e7 := by
  obtain ⟨u, v, z0, zn, b1, b2, b3, b4, b5, e, n0, nn⟩ := zlsq1_round R H.np H.few H.len H.heights (by norm_num) (by norm_num) H.fin_xi H.pos_xi H.fin1
    H.fin2 H.nonneg h H.inside
  have hnR : (n : ℝ) ≤ 1000 := by exact_mod_cast H.few
  have hc : 6e-14 * ((n : ℝ) * 1e4) ≤ 6e-7 := by norm_num; linarith
  have lt : ⌊u⌋₊ < ⌈v⌉₊ := Nat.floor_lt_ceil_of_lt_of_pos b3 (by linarith)
  have vn : ⌈v⌉₊ ≤ n := Nat.ceil_le.2 b2
  obtain ⟨a, ha⟩ : ∃ a, a = ⌊u⌋₊ := ⟨_, rfl⟩
  obtain ⟨m, hm⟩ : ∃ m, m = ⌈v⌉₊ - ⌊u⌋₊ := ⟨_, rfl⟩
  have m1 : 0 < m := by omega
  have amn : a + m ≤ n := by omega
  have bz : ∀ j, a ≤ j → j ≤ a + m → |(valPfl R p).h j| ≤ 1e4 := by
    intro j _ j2
    have := H.len
    rw [valPfl_h R (by omega)]
    exact (H.heights _ (List.getElem_mem _)).2
  have bound : ∀ t : ℝ, 0 ≤ t → t ≤ n → |fitAt (valPfl R p).h a m t| ≤ 3.5e7 := by
    intro t t0 t1
    have k := fit_small m1 bz t
    refine abs_le_of_sq_le_sq (k.trans ?_) (by norm_num)
    have m1R : (1 : ℝ) ≤ m := by exact_mod_cast m1
    have amR : (a : ℝ) + m ≤ n := by exact_mod_cast amn
    have a0 : (0 : ℝ) ≤ a := Nat.cast_nonneg a
    have q : ((t - mid a m) / m) ^ 2 ≤ 1000 ^ 2 := by
      have : |(t - mid a m) / m| ≤ 1000 := by
        have m0 : (0 : ℝ) < m := by linarith
        rw [abs_div, abs_of_pos m0, div_le_iff₀ m0, abs_le]
        unfold mid
        constructor <;> linarith
      rw [← sq_abs]
      exact pow_le_pow_left₀ (abs_nonneg _) this 2
    generalize ((t - mid a m) / m) ^ 2 = w at q ⊢
    norm_num at q ⊢; linarith
  rw [← hm, ← ha] at n0 nn
  have en : fitAt (valPfl R p).h a m 0 + fitB (valPfl R p).h a m * n = fitAt (valPfl R p).h a m n := by unfold fitAt; ring
  refine ⟨u, v, fitAt (valPfl R p).h a m 0, fitB (valPfl R p).h a m, z0, zn, b1, b2, b3, b4, b5, e, ?_, n0.mono hc, ?_, bound 0 le_rfl (Nat.cast_nonneg n), ?_⟩
  · rw [← hm, ← ha]; exact fit_best m1
  · rw [en]; exact nn.mono hc
  · rw [en]; exact bound n (Nat.cast_nonneg n) le_rfl

theorem roughHorizon_grow {κ dh h h' : ℝ} (hd : 0 ≤ dh) (h0 : 0 < h) (hh : h ≤ h') : √(h' / h) * roughHorizon κ dh h ≤ roughHorizon κ dh h' := by
  have q : 1 ≤ h' / h := (one_le_div h0).2 hh
  have := roughHorizon_scale (κ := κ) hd h0 (Real.one_le_sqrt.2 q)
  rwa [Real.sq_sqrt (by linarith), mul_div_cancel₀ _ h0.ne'] at this

/-- One terminal after the heights were raised by a factor `F` known up to `8.8e-13`. -/
theorem raise_round (R : Rounding α) {h f : α} {F : ℝ} (fh : R.fin h) (h1 : 0.5 ≤ R.val h) (h2 : R.val h ≤ 4e7) (nf : RL R f F 8.8e-13) (f1 : 1 ≤ R.val f)
    (F1 : 1 ≤ F) (F2 : F ≤ 2e22) : RL R (h * f) (R.val h * F) 9e-13 ∧ R.val h ≤ R.val (h * f) := by
  have nh : RL R h (R.val h) 0 := RL.self fh (by norm_num at h1 ⊢; linarith) (by norm_num at h2 ⊢; linarith)
  have h0 : 0 < R.val h := by norm_num at h1; linarith
  have p1 : R.val h ≤ R.val h * F := le_mul_of_one_le_right h0.le F1
  have p2 : R.val h * F ≤ 4e7 * 2e22 := mul_le_mul h2 F2 (by linarith) (by norm_num)
  refine ⟨nh.mul nf (by norm_num) (by norm_num) (by norm_num at h1 ⊢; linarith) (p2.trans (by norm_num)) (by norm_num), ?_⟩
  have b : |R.val h * R.val f| ≤ 1e100 := by
    rw [abs_mul]
    exact (mul_le_mul (nh.size (by norm_num)) (nf.size (by norm_num)) (abs_nonneg _) (by norm_num)).trans (by norm_num)
  rw [(R.mul h f fh nf.fin (le_roundBig b)).2]
  have := R.mono (show R.val h ≤ R.val h * R.val f from le_mul_of_one_le_right h0.le f1)
  rwa [R.val_rnd h fh] at this

theorem RL.sq {R : Rounding α} {a : α} {x r t : ℝ} (ha : RL R a x r) (hr : r ≤ 1 / 20) (h1 : 1e-40 ≤ x ^ 2) (h2 : x ^ 2 ≤ 1e40)
    (ht : (r + 1.5e-15) + r + (r + 1.5e-15) * r + 1.5e-15 ≤ t) : RL R (npow a 2) (x ^ 2) t := by
  obtain ⟨o1, o2⟩ := val_one R (α := α)
  have n1 : RL R (1.0 : α) 1 0 := RL.of_eq o1 o2 (by norm_num) (by norm_num)
  have na := n1.mul ha (t := r + 1.5e-15) (by norm_num) (by linarith) (by rw [one_mul]; exact ha.lo) (by rw [one_mul]; exact ha.hi) (by linarith)
  rw [one_mul] at na
  have := na.mul ha (t := t) (by norm_num; linarith) (by linarith) (by rw [← pow_two]; exact h1) (by rw [← pow_two]; exact h2) ht
  rw [pow_two]; exact this

/-- What the preparation needs to know about a terminal, the earth and the path. -/
structure LosSized (R : Rounding α) (p : PropSt α) : Prop where
  f0 : R.fin p.hg.x0
  f1 : R.fin p.hg.x1
  a0 : 0.5 ≤ R.val p.hg.x0
  a1 : 0.5 ≤ R.val p.hg.x1
  b0 : R.val p.hg.x0 ≤ 1e4
  b1 : R.val p.hg.x1 ≤ 1e4
  fk : R.fin p.gme
  k1 : 1e-8 ≤ R.val p.gme
  k2 : R.val p.gme ≤ 2.5e-7
  fd : R.fin p.dh
  d1 : 0 ≤ R.val p.dh
  d2 : R.val p.dh ≤ 3.1e5
  fl : R.fin p.dist
  l1 : 0.9 ≤ R.val p.dist
  l2 : R.val p.dist ≤ 4.1e6

/-- Factor by which antennas of heights `h₀`, `h₁` over rough terrain must be raised for their horizons to reach over the length `len`. -/
noncomputable def raised (κ dh len h₀ h₁ : ℝ) : ℝ := max 1 (len / (roughHorizon κ dh h₀ + roughHorizon κ dh h₁)) ^ 2

set_option maxHeartbeats 2000000 in
/-- The part of `pflLos` after the effective heights. -/
theorem raising_round (R : Rounding α) {p : PropSt α} (H : LosSized R p) {he0 he1 : α} (E0 : EstSized R he0 p.gme p.dh) (E1 : EstSized R he1 p.gme p.dh)
    (u0 : R.val he0 ≤ 4e7) (u1 : R.val he1 ≤ 4e7) :
    ∃ (e0 e1 d0 d1 : α), (do
      let dl0 ← pflDl he0 p.gme p.dh
      let dl1 ← pflDl he1 p.gme p.dh
      let q := dl0 + dl1
      if q ≤ p.dist then do
        let q := npow (← p.dist /! q) 2
        let he0 := he0 * q
        let dl0 ← pflDl he0 p.gme p.dh
        let he1 := he1 * q
        let dl1 ← pflDl he1 p.gme p.dh
        pure (he0, he1, dl0, dl1)
      else pure (he0, he1, dl0, dl1) : Py (α × α × α × α)) = .ok (e0, e1, d0, d1) ∧
      EstSized R e0 p.gme p.dh ∧ EstSized R e1 p.gme p.dh ∧
      RL R e0 (R.val he0 * raised (R.val p.gme) (R.val p.dh) (R.val p.dist) (R.val he0) (R.val he1)) 9e-13 ∧
      RL R e1 (R.val he1 * raised (R.val p.gme) (R.val p.dh) (R.val p.dist) (R.val he0) (R.val he1)) 9e-13 ∧
      RL R d0 (roughHorizon (R.val p.gme) (R.val p.dh) (R.val e0)) 2e-13 ∧ RL R d1 (roughHorizon (R.val p.gme) (R.val p.dh) (R.val e1)) 2e-13 ∧
      R.val he0 ≤ R.val e0 ∧ R.val he1 ≤ R.val e1 ∧ R.val p.dist * (1 - 1e-11) ≤ R.val d0 + R.val d1 := by
  obtain ⟨c0, g0, r0⟩ := pflDl_round R E0
  obtain ⟨c1, g1, r1⟩ := pflDl_round R E1
  obtain ⟨x0, y0⟩ := E0.horizon
  obtain ⟨x1, y1⟩ := E1.horizon
  obtain ⟨fl, l1, l2⟩ := (⟨H.fl, H.l1, H.l2⟩ : _ ∧ _ ∧ _)
  have k0 : 0 < R.val p.gme := lt_of_lt_of_le (by norm_num) H.k1
  obtain ⟨S, hS⟩ : ∃ S, S = roughHorizon (R.val p.gme) (R.val p.dh) (R.val he0) + roughHorizon (R.val p.gme) (R.val p.dh) (R.val he1) := ⟨_, rfl⟩
  have S1 : 4e-5 ≤ S := by rw [hS]; norm_num at *; linarith
  have S2 : S ≤ 4e19 := by rw [hS]; norm_num at *; linarith
  have S0 : 0 < S := lt_of_lt_of_le (by norm_num) S1
  have nS := r0.add r1 (t := 2.02e-13) (by norm_num) (by rw [← hS]; exact S2.trans (by norm_num)) (by norm_num)
  rw [← hS] at nS
  obtain ⟨L, hL⟩ : ∃ L, L = R.val p.dist := ⟨_, rfl⟩
  have eF : raised (R.val p.gme) (R.val p.dh) (R.val p.dist) (R.val he0) (R.val he1) = max 1 (L / S) ^ 2 := by rw [hS, hL]; rfl
  obtain ⟨M, hM⟩ : ∃ M, M = max 1 (L / S) := ⟨_, rfl⟩
  rw [eF, ← hM]
  rw [← hL] at l1 l2 ⊢
  obtain ⟨x, hx⟩ : ∃ x, x = L / S := ⟨_, rfl⟩
  rw [← hx] at hM
  have xS : x * S = L := by rw [hx]; field_simp
  have x2 : x ≤ 1.1e11 := by rw [hx, div_le_iff₀ S0]; norm_num at *; linarith
  have xlo : 1e-20 ≤ x := by rw [hx, le_div_iff₀ S0]; norm_num at *; linarith
  have M1 : 1 ≤ M := by rw [hM]; exact le_max_left _ _
  have M2 : M ≤ 1.1e11 := by rw [hM]; exact max_le (by norm_num) x2
  have hv0 : 0 < R.val he0 := by have := E0.h1; norm_num at this; linarith
  have hv1 : 0 < R.val he1 := by have := E1.h1; norm_num at this; linarith
  have MM1 : 1 ≤ M ^ 2 := one_le_pow₀ M1
  have MM2 : M ^ 2 ≤ 1.21e22 := (pow_le_pow_left₀ (by linarith) M2 2).trans (by norm_num)
  rw [g0, ok_bind, g1, ok_bind]
  dsimp only
  by_cases hc : c0 + c1 ≤ p.dist
  · rw [if_pos hc]
    rw [R.le _ _ nS.fin fl, ← hL] at hc
    have x1' : 1 - 2.1e-13 ≤ x := by
      rw [hx, le_div_iff₀ S0]
      have := nS.ge
      norm_num at this ⊢; linarith
    have nL : RL R p.dist L 0 := RL.of_eq fl hL.symm (by norm_num at l1 ⊢; linarith) (by norm_num at l2 ⊢; linarith)
    obtain ⟨nq, eq⟩ := nL.div nS (t := 2.1e-13) (by norm_num) (by norm_num) (by rw [← hx]; norm_num at xlo ⊢; linarith) (by rw [← hx]; norm_num at x2 ⊢; linarith)
      (by norm_num)
    rw [← hx] at nq
    have q1 : 1 ≤ R.val (p.dist / (c0 + c1)) := by
      have sp := nS.val_pos (by norm_num)
      have d1 : 1 ≤ R.val p.dist / R.val (c0 + c1) := by rw [one_le_div sp, ← hL]; exact hc
      have e := (R.div p.dist (c0 + c1) fl nS.fin sp.ne' (le_roundBig (by
        rw [abs_of_nonneg (by linarith), div_le_iff₀ sp, ← hL]
        have := nS.ge
        norm_num at this S1 l2 ⊢; linarith))).2
      rw [e]
      have := R.mono d1
      have ex := R.exact 1 0 (by norm_num) (by norm_num) (by norm_num)
      norm_num at ex
      rwa [ex] at this
    have nq' : RL R (p.dist / (c0 + c1)) M 4.3e-13 := by
      refine ⟨nq.fin, ?_, by norm_num; linarith, M2.trans (by norm_num)⟩
      rcases le_total 1 x with c | c
      · rw [hM, max_eq_right c]
        exact nq.err.trans (mul_le_mul_of_nonneg_right (by norm_num) (by linarith))
      · rw [hM, max_eq_left c]
        have := nq.le
        rw [abs_of_nonneg (by linarith)]
        norm_num at this ⊢; linarith
    have nf := nq'.sq (t := 8.8e-13) (by norm_num) (by norm_num; linarith) (MM2.trans (by norm_num)) (by norm_num)
    have f1 : 1 ≤ R.val (npow (p.dist / (c0 + c1)) 2) := by
      obtain ⟨o1, o2⟩ := val_one R (α := α)
      have b := nq'.size (by norm_num)
      have b1 : |R.val (1.0 : α) * R.val (p.dist / (c0 + c1))| ≤ 1e100 := by rw [o2, one_mul]; exact b.trans (by norm_num)
      obtain ⟨m1, m2⟩ := R.mul (1.0 : α) (p.dist / (c0 + c1)) o1 nq'.fin (le_roundBig b1)
      rw [o2, one_mul, R.val_rnd _ nq'.fin] at m2
      have b2 : |R.val ((1.0 : α) * (p.dist / (c0 + c1))) * R.val (p.dist / (c0 + c1))| ≤ 1e100 := by
        rw [m2, abs_mul]; exact (mul_le_mul b b (abs_nonneg _) (by norm_num)).trans (by norm_num)
      change 1 ≤ R.val ((1.0 : α) * (p.dist / (c0 + c1)) * (p.dist / (c0 + c1)))
      rw [(R.mul _ _ m1 nq'.fin (le_roundBig b2)).2, m2]
      have := R.mono (show 1 ≤ R.val (p.dist / (c0 + c1)) * R.val (p.dist / (c0 + c1)) from one_le_mul_of_one_le_of_one_le q1 q1)
      have ex := R.exact 1 0 (by norm_num) (by norm_num) (by norm_num)
      norm_num at ex
      rwa [ex] at this
    obtain ⟨n0, i0⟩ := raise_round R E0.fh E0.h1 u0 nf f1 MM1 (by norm_num at MM2 ⊢; linarith)
    obtain ⟨n1, i1⟩ := raise_round R E1.fh E1.h1 u1 nf f1 MM1 (by norm_num at MM2 ⊢; linarith)
    rw [eq, ok_bind]
    obtain ⟨f, hf⟩ : ∃ f, f = npow (p.dist / (c0 + c1)) 2 := ⟨_, rfl⟩
    rw [← hf] at n0 n1 i0 i1 ⊢
    have big : ∀ {h e : α}, R.val h ≤ 4e7 → 0 < R.val h → RL R e (R.val h * M ^ 2) 9e-13 → R.val e ≤ 1e30 := by
      intro h e a b c
      have := mul_le_mul a MM2 (by linarith) (by norm_num)
      have := c.le
      norm_num at *; linarith
    have E0' : EstSized R (he0 * f) p.gme p.dh := ⟨n0.fin, E0.fk, E0.fd, E0.h1.trans i0, big u0 hv0 n0, E0.k1, E0.k2, E0.d1, E0.d2⟩
    have E1' : EstSized R (he1 * f) p.gme p.dh := ⟨n1.fin, E1.fk, E1.fd, E1.h1.trans i1, big u1 hv1 n1, E1.k1, E1.k2, E1.d1, E1.d2⟩
    obtain ⟨d0, t0, s0⟩ := pflDl_round R E0'
    obtain ⟨d1, t1, s1⟩ := pflDl_round R E1'
    rw [t0, ok_bind, t1, ok_bind, pure_ok]
    refine ⟨_, _, _, _, rfl, E0', E1', n0, n1, s0, s1, i0, i1, ?_⟩
    have grow : ∀ {h e : α}, 0 < R.val h → R.val h ≤ R.val e → RL R e (R.val h * M ^ 2) 9e-13 →
        M * (1 - 9e-13) * roughHorizon (R.val p.gme) (R.val p.dh) (R.val h) ≤ roughHorizon (R.val p.gme) (R.val p.dh) (R.val e) := by
      intro h e a b c
      refine le_trans ?_ (roughHorizon_grow H.d1 a b)
      refine mul_le_mul_of_nonneg_right ?_ (roughHorizon_pos k0 a).le
      refine Real.le_sqrt_of_sq_le ?_
      rw [le_div_iff₀ a]
      have := c.ge
      refine le_trans ?_ this
      have p0 : 0 ≤ R.val h * M ^ 2 := mul_nonneg a.le (by positivity)
      rw [show (M * (1 - 9e-13)) ^ 2 * R.val h = (1 - 9e-13) ^ 2 * (R.val h * M ^ 2) by ring]
      refine mul_le_mul_of_nonneg_right ?_ p0
      norm_num
    have w0 := grow hv0 i0 n0
    have w1 := grow hv1 i1 n1
    have z0 := s0.ge
    have z1 := s1.ge
    have xM : x ≤ M := by rw [hM]; exact le_max_right _ _
    have tot : (1 - 9e-13) * L ≤ roughHorizon (R.val p.gme) (R.val p.dh) (R.val (he0 * f)) + roughHorizon (R.val p.gme) (R.val p.dh) (R.val (he1 * f)) := by
      have e1 : L ≤ M * S := by rw [← xS]; exact mul_le_mul_of_nonneg_right xM S0.le
      have e2 : M * (1 - 9e-13) * roughHorizon (R.val p.gme) (R.val p.dh) (R.val he0) + M * (1 - 9e-13) * roughHorizon (R.val p.gme) (R.val p.dh) (R.val he1) =
        (1 - 9e-13) * (M * S) := by rw [hS]; ring
      have := mul_le_mul_of_nonneg_left e1 (by norm_num : (0 : ℝ) ≤ 1 - 9e-13)
      linarith
    clear * - tot z0 z1 l1
    generalize roughHorizon (R.val p.gme) (R.val p.dh) (R.val (he0 * f)) = A at *
    generalize roughHorizon (R.val p.gme) (R.val p.dh) (R.val (he1 * f)) = B at *
    norm_num at *; linarith
  · rw [if_neg hc, pure_ok]
    rw [R.le _ _ nS.fin fl, ← hL] at hc
    push Not at hc
    have xb : x ≤ 1 + 2.1e-13 := by
      rw [hx, div_le_iff₀ S0]
      have := nS.le
      norm_num at this ⊢; linarith
    have Mb : M ≤ 1 + 2.1e-13 := by rw [hM]; exact max_le (by norm_num) xb
    have MMb : M ^ 2 ≤ 1 + 4.3e-13 := (pow_le_pow_left₀ (by linarith) Mb 2).trans (by norm_num)
    have near : ∀ {h : α}, R.fin h → 0.5 ≤ R.val h → R.val h ≤ 4e7 → RL R h (R.val h * M ^ 2) 9e-13 := by
      intro h f a b
      have h0 : 0 < R.val h := by norm_num at a; linarith
      have p1 : R.val h ≤ R.val h * M ^ 2 := le_mul_of_one_le_right h0.le MM1
      have p2 : R.val h * M ^ 2 ≤ R.val h * (1 + 4.3e-13) := mul_le_mul_of_nonneg_left MMb h0.le
      refine ⟨f, ?_, ?_, ?_⟩
      · rw [abs_of_nonpos (by linarith)]
        generalize R.val h * M ^ 2 = w at *
        norm_num at *; linarith
      · norm_num at a ⊢; linarith
      · norm_num at b p2 ⊢; linarith
    refine ⟨_, _, _, _, rfl, E0, E1, near E0.fh E0.h1 u0, near E1.fh E1.h1 u1, r0, r1, le_rfl, le_rfl, ?_⟩
    have b : |R.val c0 + R.val c1| ≤ 1e100 := by
      refine (abs_add_le _ _).trans ?_
      have := add_le_add (r0.size (by norm_num)) (r1.size (by norm_num))
      exact this.trans (by norm_num)
    have e := (R.add c0 c1 r0.fin r1.fin (le_roundBig b)).2
    have k := Near.rnd_err R (le_refl |R.val c0 + R.val c1|) b
    have p0 : 0 < R.val c0 + R.val c1 := add_pos (r0.val_pos (by norm_num)) (r1.val_pos (by norm_num))
    rw [← e, abs_of_pos p0] at k
    have := (abs_le.1 k).2
    clear * - this hc l1 p0
    norm_num at *; linarith

end Itm
