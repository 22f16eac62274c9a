import Verif.Lemmas.CxRound
import Verif.Lemmas.AdiffRound
import Verif.Lemmas.PrepRound
import Verif.Lemmas.CxSqrt
import Verif.Props.C41

/-! The environment parameters in rounding arithmetic. -/

namespace Itm
open Spec Props
variable {α : Type} [PyNum α] {R : Rounding α}

theorem RL.abs {a : α} {x r : ℝ} (h : RL R a x r) (hr : r < 1) : RL R (PyNum.abs a) x r := by
  obtain ⟨f, v⟩ := R.abs a h.fin
  refine ⟨f, ?_, h.lo, h.hi⟩
  rw [v, abs_of_pos (h.val_pos hr)]
  exact h.err

/-- Real part of the root of `E + iX`. -/
noncomputable def rootRe (E X : ℝ) : ℝ := 2 * √(E / 8 + √(E / 8 * (E / 8) + X / 8 * (X / 8)))
/-- Imaginary part of the root of `E + iX`. -/
noncomputable def rootIm (E X : ℝ) : ℝ := X / (2 * rootRe E X)

theorem root_bounds {E X : ℝ} (hE : 1 ≤ E) (hX : 0 < X) : 1 ≤ rootRe E X ∧ X / 2 ≤ rootRe E X ^ 2 ∧ rootRe E X ^ 2 ≤ E + X / 2 ∧ 0 < rootIm E X ∧ rootIm E X ^ 2 ≤ X / 2 := by
  have hN : X / 8 ≤ √(E / 8 * (E / 8) + X / 8 * (X / 8)) := Real.le_sqrt_of_sq_le (by nlinarith)
  have hN' : E / 8 ≤ √(E / 8 * (E / 8) + X / 8 * (X / 8)) := Real.le_sqrt_of_sq_le (by nlinarith)
  have hN2 : √(E / 8 * (E / 8) + X / 8 * (X / 8)) ≤ E / 8 + X / 8 := Real.sqrt_le_iff.2 ⟨by linarith, by nlinarith [mul_pos (show 0 < E by linarith) hX]⟩
  have hS : rootRe E X ^ 2 = 4 * (E / 8 + √(E / 8 * (E / 8) + X / 8 * (X / 8))) := by
    unfold rootRe; rw [mul_pow, Real.sq_sqrt (by linarith)]; norm_num
  have hS0 : 0 ≤ rootRe E X := by unfold rootRe; positivity
  generalize √(E / 8 * (E / 8) + X / 8 * (X / 8)) = N at *
  have h1 : 1 ≤ rootRe E X := by nlinarith
  refine ⟨h1, by linarith, by linarith, div_pos hX (by linarith), ?_⟩
  unfold rootIm
  rw [div_pow, div_le_iff₀ (by positivity)]
  nlinarith

theorem sqrt_pos_real {E X : ℝ} (hE : 1 ≤ E) (hX : 0 < X) : Cx.sqrt (⟨E, X⟩ : Cx ℝ) = ⟨rootRe E X, rootIm E X⟩ := by
  unfold Cx.sqrt Cx.abs Cx.normSq rootIm rootRe
  dsimp only
  rw [if_neg (fun k => absurd (pyEq_real.1 k.1) (by rw [zero_lit]; linarith)), if_pos (by rw [zero_lit]; linarith), if_neg (by rw [zero_lit]; exact not_lt.2 hX.le),
    rabs, rabs, abs_of_pos (by linarith), abs_of_pos hX]
  norm_num [rsqrt]

theorem sqrt_round {e x : α} {E X : ℝ} (he : RL R e E 1e-14) (hx : RL R x X 1e-14) (E1 : 1 ≤ E) (E2 : E ≤ 100) (X1 : 1e-6 ≤ X) (X2 : X ≤ 1e6) :
    RL R (Cx.sqrt ⟨e, x⟩).re (rootRe E X) 5e-14 ∧ RL R (Cx.sqrt ⟨e, x⟩).im (rootIm E X) 5e-14 := by
  obtain ⟨b1, b2, b3, b4, b5⟩ := root_bounds E1 hx.pos
  obtain ⟨zf, zv⟩ := fin_zero R
  have l8 := Near.lit_int R (m := 80) (s := true) (k := 1) 8 (by norm_num) (by norm_num)
  have h8 : RL R (8.0 : α) 8 0 := RL.of_eq l8.1 (l8.2.trans (by norm_num)) (by norm_num) (by norm_num)
  have l2 := Near.lit_int R (m := 20) (s := true) (k := 1) 2 (by norm_num) (by norm_num)
  have h2 : RL R (2.0 : α) 2 0 := RL.of_eq l2.1 (l2.2.trans (by norm_num)) (by norm_num) (by norm_num)
  have Xp := hx.pos
  have ae := he.abs (by norm_num)
  have ax := hx.abs (by norm_num)
  have A := (ae.div h8 (t := 1.16e-14) (by norm_num) (by norm_num) (by rw [le_div_iff₀ (by norm_num)]; norm_num; linarith) (by rw [div_le_iff₀ (by norm_num)]; norm_num; linarith) (by norm_num)).1
  have B := (ax.div h8 (t := 1.16e-14) (by norm_num) (by norm_num) (by rw [le_div_iff₀ (by norm_num)]; norm_num at *; linarith) (by rw [div_le_iff₀ (by norm_num)]; norm_num at *; linarith) (by norm_num)).1
  have A1 : 0.1 ≤ E / 8 := by norm_num; linarith
  have A2 : E / 8 ≤ 100 := by linarith
  have B1 : 1e-7 ≤ X / 8 := by norm_num at *; linarith
  have B2 : X / 8 ≤ 1e6 := by norm_num at *; linarith
  have N0 : √(E / 8 * (E / 8) + X / 8 * (X / 8)) ≤ E / 8 + X / 8 := Real.sqrt_le_iff.2 ⟨by linarith, by nlinarith [mul_pos (show 0 < E by linarith) Xp]⟩
  have N1 : 0.1 ≤ √(E / 8 * (E / 8) + X / 8 * (X / 8)) := Real.le_sqrt_of_sq_le (by norm_num at *; nlinarith)
  have S0 : rootRe E X = 2 * √(E / 8 + √(E / 8 * (E / 8) + X / 8 * (X / 8))) := rfl
  have D0 : rootIm E X = X / (2 * rootRe E X) := rfl
  have S1 : rootRe E X ≤ 1e6 := by norm_num at *; nlinarith
  have D1 : 1e-13 ≤ rootIm E X := by rw [D0, le_div_iff₀ (by linarith)]; norm_num at *; linarith
  have D2 : rootIm E X ≤ 1e6 := by rw [D0, div_le_iff₀ (by linarith)]; norm_num at *; nlinarith
  generalize E / 8 = a at *
  generalize X / 8 = b at *
  have a2 := A.mul A (t := 2.5e-14) (by norm_num) (by norm_num) (by norm_num at *; nlinarith) (by norm_num at *; nlinarith) (by norm_num)
  have bl : 1e-7 * 1e-7 ≤ b * b := mul_le_mul B1 B1 (by norm_num) (by linarith)
  have bh : b * b ≤ 1e6 * 1e6 := mul_le_mul B2 B2 (by linarith) (by norm_num)
  have ah : a * a ≤ 100 * 100 := mul_le_mul A2 A2 (by linarith) (by norm_num)
  have b2' := B.mul B (t := 2.5e-14) (by norm_num) (by norm_num) (bl.trans' (by norm_num)) (bh.trans (by norm_num)) (by norm_num)
  have n := a2.add b2' (t := 2.7e-14) (by norm_num) ((add_le_add ah bh).trans (by norm_num)) (by norm_num)
  have m := (n.sqrt (t := 2.9e-14) (by norm_num) (by norm_num) (N1.trans' (by norm_num)) (N0.trans ((add_le_add A2 B2).trans (by norm_num)))).1
  generalize √(a * a + b * b) = N at *
  have s1 := (A.mono (t := 2.9e-14) (by norm_num)).add m (t := 3.1e-14) (by norm_num) (by norm_num at *; linarith) (by norm_num)
  have q1 : 0.3 ≤ √(a + N) := by rw [S0] at b1; norm_num at *; linarith
  have q2 : √(a + N) ≤ 1e6 := by rw [S0] at S1; norm_num at *; linarith
  have s2 := (s1.sqrt (t := 3.3e-14) (by norm_num) (by norm_num) (q1.trans' (by norm_num)) (q2.trans (by norm_num))).1
  have s3 := h2.mul s2 (t := 3.5e-14) (by norm_num) (by norm_num) (by norm_num at *; linarith) (by norm_num at *; linarith) (by norm_num)
  rw [← S0] at s3
  have s4 := h2.mul s3 (t := 3.7e-14) (by norm_num) (by norm_num) (by norm_num at *; linarith) (by norm_num at *; linarith) (by norm_num)
  have d := (ax.div s4 (t := 5e-14) (by norm_num) (by norm_num) (by rw [← D0]; exact D1.trans' (by norm_num)) (by rw [← D0]; exact D2.trans (by norm_num)) (by norm_num)).1
  rw [← D0] at d
  have ep := he.val_pos (by norm_num)
  have xp := hx.val_pos (by norm_num)
  have e0 := cxsqrt_right (z := (⟨e, x⟩ : Cx α)) (fun k => absurd ((pyEq_round he.fin zf).1 k.1) (by rw [zv]; exact ep.ne'))
    ((R.le _ _ zf he.fin).2 (by rw [zv]; exact ep.le)) (fun k => absurd ((R.lt _ _ hx.fin zf).1 k) (by rw [zv]; exact not_lt.2 xp.le))
  rw [e0]
  exact ⟨s3.mono (by norm_num), d⟩

/-- Quotient of nearby complex numbers. -/
theorem quot_near {z w Z W : ℂ} {a b M : ℝ} (hz : ‖z - Z‖ ≤ a * M) (hw : ‖w - W‖ ≤ b * M) (hM : 0 < M) (w1 : 0.9 * M ≤ ‖w‖) (W1 : M ≤ ‖W‖) (Z1 : ‖Z‖ ≤ 2 * M) (hb : 0 ≤ b) :
    ‖z / w - Z / W‖ ≤ (a + 2 * b) / 0.9 := by
  have w0 : 0 < ‖w‖ := lt_of_lt_of_le (by positivity) w1
  have W0 : 0 < ‖W‖ := lt_of_lt_of_le hM W1
  have e : z / w - Z / W = (z - Z) / w + Z * (W - w) / (w * W) := by
    have : w ≠ 0 := norm_pos_iff.1 w0
    have : W ≠ 0 := norm_pos_iff.1 W0
    field_simp
    ring
  rw [e]
  refine (norm_add_le _ _).trans ?_
  rw [norm_div, norm_div, norm_mul, norm_mul, norm_sub_rev W w]
  have p1 : ‖z - Z‖ / ‖w‖ ≤ a / 0.9 := by
    rw [div_le_div_iff₀ w0 (by norm_num)]
    have a0 : 0 ≤ a := nonneg_of_mul_nonneg_left ((norm_nonneg _).trans hz) hM
    nlinarith
  have p2 : ‖Z‖ * ‖w - W‖ / (‖w‖ * ‖W‖) ≤ 2 * b / 0.9 := by
    rw [div_le_div_iff₀ (by positivity) (by norm_num)]
    have k1 : ‖Z‖ * ‖w - W‖ ≤ 2 * M * (b * M) := mul_le_mul Z1 hw (norm_nonneg _) (by positivity)
    have k2 : 0.9 * M * M ≤ ‖w‖ * ‖W‖ := mul_le_mul w1 W1 hM.le (norm_nonneg _)
    nlinarith
  refine (add_le_add p1 p2).trans (le_of_eq (by ring))

/-- The surface impedance. -/
theorem ground_round {e s w : α} {W : ℝ} (ipol : ℤ) (fe : R.fin e) (e1 : 2 ≤ R.val e) (e2 : R.val e ≤ 100) (fs : R.fin s) (s1 : 1e-5 ≤ R.val s) (s2 : R.val s ≤ 10)
    (hw : RL R w W 3.1e-15) (w1 : 0.02 ≤ W) (w2 : W ≤ 2100) :
    ∃ q q' z z', groundZq e s w = .ok q ∧ groundZq (R.val e) (R.val s) W = .ok q' ∧
      (if ipol ≠ 0 then Cx.div (Cx.sqrt (Cx.sub q ⟨1.0, 0.0⟩)) q else pure (Cx.sqrt (Cx.sub q ⟨1.0, 0.0⟩)) : Py (Cx α)) = .ok z ∧
      (if ipol ≠ 0 then Cx.div (Cx.sqrt (Cx.sub q' ⟨1.0, 0.0⟩)) q' else pure (Cx.sqrt (Cx.sub q' ⟨1.0, 0.0⟩)) : Py (Cx ℝ)) = .ok z' ∧ NC R z z'.toC 1e-10 := by
  obtain ⟨zf, zv⟩ := fin_zero R
  have l1 := Near.lit_int R (m := 10) (s := true) (k := 1) 1 (by norm_num) (by norm_num)
  have v1 : R.val (1.0 : α) = 1 := l1.2.trans (by norm_num)
  have c : RL R (376.62 : α) 376.62 1.5e-15 := RL.lit R (by norm_num) (by norm_num)
  have hs : RL R s (R.val s) 0 := RL.self fs (s1.trans' (by norm_num)) (s2.trans (by norm_num))
  have Wp := hw.pos
  have n1 := c.mul hs (t := 3.1e-15) (by norm_num) (by norm_num) (by norm_num at *; linarith) (by norm_num at *; linarith) (by norm_num)
  have X1 : 1e-6 ≤ 376.62 * R.val s / W := by rw [le_div_iff₀ Wp]; norm_num at *; linarith
  have X2 : 376.62 * R.val s / W ≤ 2e5 := by rw [div_le_iff₀ Wp]; norm_num at *; linarith
  have e1' : (1e-40 : ℝ) ≤ R.val e - 1 := by norm_num at *; linarith
  obtain ⟨n2, d2⟩ := n1.div hw (t := 8e-15) (by norm_num) (by norm_num) (X1.trans' (by norm_num)) (X2.trans (by norm_num)) (by norm_num)
  have sz : |R.val e - R.val (1.0 : α)| ≤ roundBig := by
    rw [v1]; exact le_roundBig (abs_le.2 ⟨by norm_num; linarith, by norm_num; linarith⟩)
  obtain ⟨f1, g1⟩ := R.sub e 1.0 fe l1.1 sz
  have hE : RL R (e - 1.0) (R.val e - 1) 1e-14 :=
    RL.of_rnd (r := 0) f1 g1 (by rw [v1]; simp) e1' (by norm_num; linarith) (by norm_num) (by norm_num)
  have sx : |R.val (376.62 * s / w) - R.val (0.0 : α)| ≤ roundBig := by
    rw [zv, sub_zero]; exact le_roundBig ((n2.size (by norm_num)).trans (by norm_num))
  obtain ⟨f2, g2⟩ := R.sub (376.62 * s / w) 0.0 n2.fin zf sx
  have hX : RL R (376.62 * s / w - 0.0) (376.62 * R.val s / W) 1e-14 :=
    RL.of_rnd (r := 8e-15) f2 g2 (by rw [zv, sub_zero]; exact n2.err) n2.lo n2.hi (by norm_num) (by norm_num)
  generalize 376.62 * s / w = x at *
  obtain ⟨X, dX⟩ : ∃ X, 376.62 * R.val s / W = X := ⟨_, rfl⟩
  rw [dX] at X1 X2 n2 hX
  have E1 : 1 ≤ R.val e - 1 := by linarith
  have Xp : 0 < X := n2.pos
  obtain ⟨k1, k2⟩ := sqrt_round hE hX E1 (by linarith) X1 (X2.trans (by norm_num))
  obtain ⟨b1, -, b3, b4, b5⟩ := root_bounds E1 Xp
  have er := sqrt_pos_real E1 Xp
  have hq' : (Cx.sub ⟨R.val e, X⟩ ⟨1.0, 0.0⟩ : Cx ℝ) = ⟨R.val e - 1, X⟩ := by simp only [Cx.sub]; norm_num
  refine ⟨⟨e, x⟩, ⟨R.val e, X⟩, ?_⟩
  have hq : (Cx.sub ⟨e, x⟩ ⟨1.0, 0.0⟩ : Cx α) = ⟨e - 1.0, x - 0.0⟩ := rfl
  rw [hq, hq', er]
  generalize Cx.sqrt (⟨e - 1.0, x - 0.0⟩ : Cx α) = u at *
  generalize rootRe (R.val e - 1) X = S at *
  generalize rootIm (R.val e - 1) X = D at *
  by_cases hp : ipol ≠ 0
  · simp only [if_pos hp]
    obtain ⟨M, hM⟩ : ∃ M, M = max (R.val e) X := ⟨_, rfl⟩
    have M1 : R.val e ≤ M := by rw [hM]; exact le_max_left _ _
    have M2 : X ≤ M := by rw [hM]; exact le_max_right _ _
    have M0 : 2 ≤ M := e1.trans M1
    have M3 : M ≤ 2e5 := by rw [hM]; exact max_le (e2.trans (by norm_num)) X2
    have S1 : S ≤ 0.87 * M := abs_le_of_sq_le_sq' (by norm_num; nlinarith) (by positivity) |>.2
    have D1 : D ≤ 0.5 * M := abs_le_of_sq_le_sq' (by norm_num; nlinarith) (by positivity) |>.2
    have hxe := abs_le.1 n2.err
    have xv : 0 < R.val x := n2.val_pos (by norm_num)
    obtain ⟨m, hm⟩ : ∃ m, max |R.val e| |R.val x| = m := ⟨_, rfl⟩
    have m1 : R.val e ≤ m := by rw [← hm]; exact (le_abs_self _).trans (le_max_left _ _)
    have m2 : R.val x ≤ m := by rw [← hm]; exact (le_abs_self _).trans (le_max_right _ _)
    have m3 : 0.99 * M ≤ m := by
      rcases max_choice (R.val e) X with k | k <;> rw [k] at hM
      · rw [hM]; norm_num; linarith
      · rw [hM]; norm_num at hxe ⊢; linarith
    have m4 : m ≤ 1e6 := by
      rw [← hm, abs_of_pos (by linarith), abs_of_pos xv]
      exact max_le (e2.trans (by norm_num)) (by norm_num at hxe X2 ⊢; linarith)
    have r1 := abs_le.1 k1.err
    have r2 := abs_le.1 k2.err
    have p1 := k1.val_pos (by norm_num)
    have p2 := k2.val_pos (by norm_num)
    obtain ⟨q, c1, c2⟩ := cxdiv_round (z := u) (w := ⟨e, x⟩) k1.fin k2.fin fe n2.fin hm (by norm_num; linarith) m4
      (by rw [abs_of_pos p1]; norm_num at r1 S1 m3 ⊢; linarith) (by rw [abs_of_pos p2]; norm_num at r2 D1 m3 ⊢; linarith)
    obtain ⟨r, hr, -⟩ := cxdiv_ok (z := ⟨S, D⟩) (w := ⟨R.val e, X⟩) (by rw [normSq_real]; dsimp only; positivity)
    refine ⟨q, r, ?_, ?_, c1, hr, c2.re, c2.im, ?_⟩
    · unfold groundZq; rw [d2, ok_bind, pure_ok]
    · unfold groundZq; rw [pyDiv_ok Wp.ne', ok_bind, pure_ok, dX]
    · rw [toC_div hr]
      have t := norm_sub_le_norm_sub_add_norm_sub (cval R q) (cval R u / cval R (⟨e, x⟩ : Cx α)) (Cx.toC ⟨S, D⟩ / Cx.toC ⟨R.val e, X⟩)
      have z1 : ‖cval R u - Cx.toC ⟨S, D⟩‖ ≤ 7e-14 * M := by
        refine (Complex.norm_le_abs_re_add_abs_im _).trans ?_
        have a1 : |(cval R u - Cx.toC ⟨S, D⟩).re| ≤ 5e-14 * S := k1.err
        have a2 : |(cval R u - Cx.toC ⟨S, D⟩).im| ≤ 5e-14 * D := k2.err
        generalize |(cval R u - Cx.toC ⟨S, D⟩).re| = y1 at *
        generalize |(cval R u - Cx.toC ⟨S, D⟩).im| = y2 at *
        norm_num at a1 a2 S1 D1 ⊢
        linarith
      have z2 : ‖cval R (⟨e, x⟩ : Cx α) - Cx.toC ⟨R.val e, X⟩‖ ≤ 8e-15 * M := by
        refine (Complex.norm_le_abs_re_add_abs_im _).trans ?_
        have a1 : (cval R (⟨e, x⟩ : Cx α) - Cx.toC ⟨R.val e, X⟩).re = 0 := by simp [cval, Cx.toC]
        have a2 : |(cval R (⟨e, x⟩ : Cx α) - Cx.toC ⟨R.val e, X⟩).im| ≤ 8e-15 * X := n2.err
        rw [a1, abs_zero, zero_add]
        exact a2.trans (mul_le_mul_of_nonneg_left M2 (by norm_num))
      have z3 : 0.9 * M ≤ ‖cval R (⟨e, x⟩ : Cx α)‖ := by
        have a1 := (le_abs_self _).trans (Complex.abs_re_le_norm (cval R (⟨e, x⟩ : Cx α)))
        have a2 := (le_abs_self _).trans (Complex.abs_im_le_norm (cval R (⟨e, x⟩ : Cx α)))
        have a3 : (cval R (⟨e, x⟩ : Cx α)).re = R.val e := rfl
        have a4 : (cval R (⟨e, x⟩ : Cx α)).im = R.val x := rfl
        rw [a3] at a1
        rw [a4] at a2
        have : m ≤ ‖cval R (⟨e, x⟩ : Cx α)‖ := by rw [← hm, abs_of_pos (by linarith), abs_of_pos xv]; exact max_le a1 a2
        generalize ‖cval R (⟨e, x⟩ : Cx α)‖ = y at *
        norm_num at m3 ⊢
        linarith
      have z4 : M ≤ ‖Cx.toC ⟨R.val e, X⟩‖ := by
        have a1 := (le_abs_self _).trans (Complex.abs_re_le_norm (Cx.toC ⟨R.val e, X⟩))
        have a2 := (le_abs_self _).trans (Complex.abs_im_le_norm (Cx.toC ⟨R.val e, X⟩))
        rw [hM]; exact max_le a1 a2
      have z5 : ‖Cx.toC ⟨S, D⟩‖ ≤ 2 * M := by
        refine (Complex.norm_le_abs_re_add_abs_im _).trans ?_
        have a1 : |(Cx.toC ⟨S, D⟩).re| = S := abs_of_pos (by show 0 < S; linarith)
        have a2 : |(Cx.toC ⟨S, D⟩).im| = D := abs_of_pos b4
        rw [a1, a2]; norm_num at S1 D1; linarith
      have z6 := quot_near z1 z2 (by linarith) z3 z4 z5 (by norm_num)
      exact t.trans ((add_le_add c2.err z6).trans (by norm_num))
  · simp only [if_neg hp]
    refine ⟨u, ⟨S, D⟩, ?_, ?_, rfl, rfl, ?_⟩
    · unfold groundZq; rw [d2, ok_bind, pure_ok]
    · unfold groundZq; rw [pyDiv_ok Wp.ne', ok_bind, pure_ok, dX]
    · have S1 : S ≤ 400 := abs_le_of_sq_le_sq' (by norm_num at X2 ⊢; nlinarith) (by norm_num) |>.2
      have D1 : D ≤ 400 := abs_le_of_sq_le_sq' (by norm_num at X2 ⊢; nlinarith) (by norm_num) |>.2
      exact NC.of_near (w := Cx.toC ⟨S, D⟩) (e := 5e-14 * S) (f := 5e-14 * D) ⟨k1.fin, k1.err⟩ ⟨k2.fin, k2.err⟩ (by norm_num; linarith)

/-- The surface refractivity. -/
theorem refr_round {z n : α} (fz : R.fin z) (z1 : |R.val z| ≤ 1e4) (fn : R.fin n) (n1 : 1 ≤ R.val n) (n2 : R.val n ≤ 1000) :
    RL R (if ¬ pyEq z 0.0 then n * PyNum.exp (-z / 9460.0) else n) (R.val n * Real.exp (-R.val z / 9460)) 7e-15 := by
  obtain ⟨zf, zv⟩ := fin_zero R
  have hn : RL R n (R.val n) 0 := RL.self fn (n1.trans' (by norm_num)) (n2.trans (by norm_num))
  by_cases h : pyEq z 0.0
  · rw [if_neg (not_not.2 h)]
    rw [pyEq_round fz zf, zv] at h
    rw [h, neg_zero, zero_div, Real.exp_zero, mul_one]
    exact hn.mono (by norm_num)
  · rw [if_pos h]
    obtain ⟨k1, k2⟩ := Near.lit_int R (m := 94600) (s := true) (k := 1) 9460 (by norm_num) (by norm_num)
    have k : Near R (9460.0 : α) 9460 0 := Near.of_eq k1 (k2.trans (by norm_num))
    have q : |-R.val z / 9460| ≤ 1.06 := by
      rw [abs_div, abs_neg, abs_of_pos (show (0 : ℝ) < 9460 by norm_num), div_le_iff₀ (by norm_num)]
      norm_num at z1 ⊢; linarith
    obtain ⟨d, -⟩ := ((Near.self fz).neg).div k (Q := 1.06) (m := 9460) (M := 1.06) (g := 1.1e-15) q (by norm_num) (by norm_num) (by norm_num) (by norm_num) (by norm_num)
    have q' := abs_le.1 q
    have p1 : (1 / 27 : ℝ) ≤ Real.exp (-R.val z / 9460) := by
      have := Real.add_one_le_exp (R.val z / 9460)
      rw [neg_div, Real.exp_neg, ← one_div]
      rw [neg_div] at q'
      have l : Real.exp (R.val z / 9460) ≤ Real.exp 3 := Real.exp_le_exp.2 (by norm_num at q'; linarith)
      have l2 : Real.exp 3 ≤ 27 := by
        have := Real.exp_one_lt_d9
        have e3 : Real.exp 3 = Real.exp 1 ^ 3 := by rw [← Real.exp_nat_mul]; norm_num
        rw [e3]
        calc Real.exp 1 ^ 3 ≤ 3 ^ 3 := pow_le_pow_left₀ (Real.exp_pos _).le (by linarith) 3
          _ = 27 := by norm_num
      exact one_div_le_one_div_of_le (Real.exp_pos _) (l.trans l2)
    have p2 : Real.exp (-R.val z / 9460) ≤ 27 := by
      have l : Real.exp (-R.val z / 9460) ≤ Real.exp 3 := Real.exp_le_exp.2 (by norm_num at q'; linarith)
      have := Real.exp_one_lt_d9
      have e3 : Real.exp 3 = Real.exp 1 ^ 3 := by rw [← Real.exp_nat_mul]; norm_num
      rw [e3] at l
      refine l.trans ?_
      calc Real.exp 1 ^ 3 ≤ 3 ^ 3 := pow_le_pow_left₀ (Real.exp_pos _).le (by linarith) 3
          _ = 27 := by norm_num
    have e := RL.exp d (by norm_num) (p1.trans' (by norm_num)) (p2.trans (by norm_num)) (t := 5.3e-15) (by norm_num)
    exact hn.mul e (by norm_num) (by norm_num) (by nlinarith) (by nlinarith) (by norm_num)

/-- The effective curvature. -/
theorem curv_round {n : α} {N : ℝ} (h : RL R n N 7e-15) (h1 : 1e-3 ≤ N) (h2 : N ≤ 500) :
    Near R (effCurvature (157e-9 : α) n) (157e-9 * (1 - 0.04665 * Real.exp (N / 179.3))) 2e-20 := by
  have a1 : RL R (179.3 : α) 179.3 1.5e-15 := RL.lit R (by norm_num) (by norm_num)
  have a2 : RL R (0.04665 : α) 0.04665 1.5e-15 := RL.lit R (by norm_num) (by norm_num)
  obtain ⟨b, -⟩ := h.div a1 (t := 1.02e-14) (by norm_num) (by norm_num) (by rw [le_div_iff₀ (by norm_num)]; norm_num at *; linarith) (by rw [div_le_iff₀ (by norm_num)]; norm_num at *; linarith) (by norm_num)
  have N1 : N / 179.3 ≤ 2.79 := by rw [div_le_iff₀ (by norm_num)]; norm_num; linarith
  have N0 : 0 ≤ N / 179.3 := div_nonneg (by norm_num at h1; linarith) (by norm_num)
  have x1 : Real.exp (N / 179.3) ≤ 21 := by
    refine (Real.exp_le_exp.2 (N1.trans (show (2.79 : ℝ) ≤ 3 by norm_num))).trans ?_
    have := Real.exp_one_lt_d9
    have e3 : Real.exp 3 = Real.exp 1 ^ 3 := by rw [← Real.exp_nat_mul]; norm_num
    rw [e3]
    calc Real.exp 1 ^ 3 ≤ 2.7183 ^ 3 := pow_le_pow_left₀ (Real.exp_pos _).le (by norm_num; linarith) 3
      _ ≤ 21 := by norm_num
  have x0 : 1 ≤ Real.exp (N / 179.3) := Real.one_le_exp N0
  have c := RL.exp (e := 2.9e-14) ⟨b.fin, b.err.trans (by norm_num at N1 ⊢; linarith)⟩ (by norm_num) (x0.trans' (by norm_num)) (x1.trans (by norm_num)) (t := 6.2e-14) (by norm_num)
  have d := a2.mul c (t := 6.6e-14) (by norm_num) (by norm_num) (by generalize Real.exp (N / 179.3) = y at *; norm_num; linarith) (by generalize Real.exp (N / 179.3) = y at *; norm_num; linarith) (by norm_num)
  obtain ⟨o1, o2⟩ := Near.lit_int R (m := 10) (s := true) (k := 1) 1 (by norm_num) (by norm_num)
  have o : NB R (1.0 : α) 1 1 0 := ⟨Near.of_eq o1 (o2.trans (by norm_num)), by norm_num⟩
  have d' : NB R (0.04665 * PyNum.exp (n / 179.3)) (0.04665 * Real.exp (N / 179.3)) 1 7e-14 := by
    refine ⟨⟨d.fin, d.err.trans ?_⟩, ?_⟩
    · generalize Real.exp (N / 179.3) = y at *; norm_num; linarith
    · generalize Real.exp (N / 179.3) = y at *; rw [abs_of_nonneg (by positivity)]; norm_num; linarith
  have f := (o.sub d' (Z := 2) (g := 7.3e-14) (by norm_num) (by norm_num) (by norm_num)).tight (Y := 1) (by
    generalize Real.exp (N / 179.3) = y at *; rw [abs_le]; constructor <;> norm_num <;> linarith)
  have g : RL R (157e-9 : α) 157e-9 1.5e-15 := RL.lit R (by norm_num) (by norm_num)
  have g' : Near R (157e-9 : α) 157e-9 3e-22 := ⟨g.fin, g.err.trans (by norm_num)⟩
  unfold effCurvature
  exact g'.mul f.toNear (X := 1.57e-7) (Y := 1) (M := 2e-7) (by norm_num) f.bound (by norm_num) (by norm_num) (by norm_num)

end Itm
