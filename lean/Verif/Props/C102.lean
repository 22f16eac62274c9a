import Verif.Lemmas.DiffRound
import Verif.Lemmas.WeightRound
import Verif.Lemmas.Binary64

/-! C102: the elementary attenuation functions survive rounding. -/

namespace Itm.Props
open Itm Spec
variable {α : Type} [PyNum α]

/-- The attenuation of one knife edge. Around the parameter 5.76, where the formulas change, rounding may pick the other formula. -/
theorem C102_knife (R : Rounding α) (v : α) (hv : R.fin v) (h : R.val v ≤ 1e40) :
    ∃ a b, aknfe v = .ok a ∧ aknfe (R.val v) = .ok b ∧ R.fin a ∧ |R.val a - b| ≤ 0.02 ∧ (1e-14 ≤ |R.val v - 5.76| → |R.val a - b| ≤ 1e-11) := by
  obtain ⟨a, b, e1, e2, n⟩ := aknfe_round_any R hv h
  refine ⟨a, b, e1, e2, n.fin, n.err, fun hc => ?_⟩
  obtain ⟨a', b', e1', e2', n'⟩ := aknfe_round R hv h hc
  obtain rfl := ok_inj.1 (e1.symm.trans e1')
  obtain rfl := ok_inj.1 (e2.symm.trans e2')
  exact n'.err

/-- The exception is real: the double that Python writes `5.76` is less than 5.76, and there the function is off by more than 0.01 dB. -/
theorem C102_knife_doubles {M : Libm} (h : M.Accurate) : Double.val (5.76 : DoubleOf M) < 5.76 ∧
    ∃ (a : DoubleOf M) (b : ℝ), aknfe (5.76 : DoubleOf M) = .ok a ∧ aknfe (Double.val (5.76 : DoubleOf M)) = .ok b ∧ Double.val a + 0.01 ≤ b := by
  obtain ⟨lf, lv⟩ := (ieee h).lit 576 true 2 (le_roundBig (by norm_num))
  have l : Int.log 2 |(5.76 : ℝ)| = 2 := by
    have h1 := log_le (x := 5.76) (by norm_num)
    have h2 := lt_log 5.76
    rw [abs_of_pos (by norm_num)] at h1 h2 ⊢
    generalize Int.log 2 (5.76 : ℝ) = L at *
    have h3 : (2 : ℝ) ^ L < 2 ^ (3 : ℤ) := lt_of_le_of_lt h1 (by norm_num)
    have h4 : (2 : ℝ) ^ (2 : ℤ) < 2 ^ (L + 1) := lt_trans (by norm_num) h2
    have h5 := (zpow_lt_zpow_iff_right₀ (by norm_num : (1 : ℝ) < 2)).1 h3
    have h6 := (zpow_lt_zpow_iff_right₀ (by norm_num : (1 : ℝ) < 2)).1 h4
    omega
  have u : ulp 5.76 = 2 ^ (-50 : ℤ) := by unfold ulp; rw [l]; norm_num
  have r : roundHalfEven ((5.76 : ℝ) / 2 ^ (-50 : ℤ)) = 6485183463413514 := by
    have f : ⌊(5.76 : ℝ) / 2 ^ (-50 : ℤ)⌋ = 6485183463413514 := by rw [Int.floor_eq_iff]; norm_num
    unfold roundHalfEven
    rw [f]
    norm_num
  have n : nearest 5.76 = 6485183463413514 * 2 ^ (-50 : ℤ) := by unfold nearest; rw [u, r]; norm_num
  have v : Double.val (5.76 : DoubleOf M) = 6485183463413514 * 2 ^ (-50 : ℤ) := lv.trans n
  have v1 : Double.val (5.76 : DoubleOf M) < 5.76 := by rw [v]; norm_num
  have v2 : 5.7599999 ≤ Double.val (5.76 : DoubleOf M) := by rw [v]; norm_num
  refine ⟨v1, ?_⟩
  have c : ¬ (5.76 : DoubleOf M) < 5.76 := by rw [(ieee h).lt _ _ lf lf]; exact lt_irrefl _
  obtain ⟨a, b, e1, e2, n1⟩ := knife_high (ieee h) lf (show (1 : ℝ) ≤ Double.val (5.76 : DoubleOf M) by norm_num at *; linarith)
    (show Double.val (5.76 : DoubleOf M) ≤ 1e40 by norm_num at *; linarith)
  have e2 : (do let l ← npLog (Double.val (5.76 : DoubleOf M)); pure (12.953 + 4.343 * l) : Py ℝ) = .ok b := e2
  have n1 : |Double.val a - b| ≤ 1e-11 := n1.err
  unfold aknfe
  rw [if_neg c, if_pos v1, e1]
  clear e1 c n v lf lv
  generalize Double.val (5.76 : DoubleOf M) = x at *
  have hp : 0 < x := lt_of_lt_of_le (by norm_num) v2
  rw [npLog_ok hp, ok_bind, pure_ok, ok_inj] at e2
  rw [if_neg (by rw [zero_lit]; exact not_le.2 hp)]
  dsimp only
  rw [mathSqrt_ok hp.le, ok_bind, pure_ok]
  refine ⟨a, _, rfl, rfl, ?_⟩
  have s1 : 2.39999 ≤ √x := Real.le_sqrt_of_sq_le (le_trans (by norm_num) v2)
  have l2 : Real.log x ≤ 48 / 19 * 0.6931471808 := (Real.log_le_log hp v1.le).trans (log_upper (y := 5.76) 19 48 (by norm_num) (by norm_num) (by norm_num))
  rw [← e2] at n1
  clear * - n1 s1 l2 v1
  have := (abs_le.1 n1).2
  norm_num at *
  linarith

/-- The height-gain function of smooth-earth diffraction, away from the lines where its formulas change. -/
theorem C102_height (R : Rounding α) (x pk : α) (hx : R.fin x) (hk : R.fin pk) (x1 : -200 ≤ R.val x) (x2 : R.val x ≤ 1e6)
    (k1 : 1e-40 ≤ R.val pk) (k2 : R.val pk ≤ 1e4)
    (clear : R.val x < 200 → 1e-19 ≤ |R.val pk - 1e-5| ∧ (1e-5 ≤ R.val pk → 1e-8 ≤ |R.val x * (-Real.log (R.val pk)) ^ 3 - 5495|)) :
    ∃ a b, fht x pk = .ok a ∧ fht (R.val x) (R.val pk) = .ok b ∧ R.fin a ∧ |R.val a - b| ≤ 2e-8 := by
  rcases lt_or_ge (R.val x) 200 with k | k
  · obtain ⟨c1, c2⟩ := clear k
    obtain ⟨a, b, e1, e2, n⟩ := fht_near R hx x1 k hk k1 k2 c1 c2
    exact ⟨a, b, e1, e2, n.fin, n.err⟩
  · obtain ⟨a, b, e1, e2, n⟩ := fht_far R (R.val pk) hx k x2
    exact ⟨a, b, e1, e2, n.fin, n.err⟩

/-- The weight between the two diffraction formulas. -/
theorem C102_weight (R : Rounding α) (d : α) (p : PropSt α) (p' : PropSt ℝ) (c : DiffC α) (c' : DiffC ℝ) (hp : p.diff = some c) (hp' : p'.diff = some c')
    (hd : R.fin d) (d1 : 1 ≤ R.val d) (d2 : R.val d ≤ 1e7) (f : R.fin c.wd1 ∧ R.fin c.xd1 ∧ R.fin p.dh ∧ R.fin p.wn)
    (e : c'.wd1 = R.val c.wd1 ∧ c'.xd1 = R.val c.xd1 ∧ p'.dh = R.val p.dh ∧ p'.wn = R.val p.wn)
    (lo : 0 ≤ R.val c.wd1 ∧ 0 ≤ R.val c.xd1 ∧ 0 ≤ R.val p.dh ∧ 0 ≤ R.val p.wn)
    (hi : R.val c.wd1 ≤ 1e6 ∧ R.val c.xd1 ≤ 1e9 ∧ R.val p.dh ≤ 1e5 ∧ R.val p.wn ≤ 1e4) :
    ∃ a b, adiffWeight d p = .ok a ∧ adiffWeight (R.val d) p' = .ok b ∧ R.fin a ∧ |R.val a - b| ≤ 1e-10 ∧ 0 < b ∧ b ≤ 1 := by
  obtain ⟨a, b, e1, e2, n, h⟩ := weight_round R hp hp' hd d1 d2 f.1 e.1 lo.1 hi.1 f.2.1 e.2.1 lo.2.1 hi.2.1 f.2.2.1 e.2.2.1 lo.2.2.1 hi.2.2.1
    f.2.2.2 e.2.2.2 lo.2.2.2 hi.2.2.2
  exact ⟨a, b, e1, e2, n.fin, n.err, h⟩

/-- The frequency gain of scattering, for every layer parameter. -/
theorem C102_gain (R : Rounding α) (r et : α) (hr : R.fin r) (he : R.fin et) (r1 : 1e-6 ≤ R.val r) (r2 : R.val r ≤ 1e6) :
    ∃ a b, h0f r et = .ok a ∧ h0f (R.val r) (R.val et) = .ok b ∧ R.fin a ∧ |R.val a - b| ≤ 1e-10 := by
  obtain ⟨a, b, e1, e2, n⟩ := h0f_round R hr r1 r2 he
  exact ⟨a, b, e1, e2, n.fin, n.err⟩

/-- The distance function of scattering. -/
theorem C102_scatter (R : Rounding α) (td : α) (h : R.fin td) (h1 : 1e-40 ≤ R.val td) (h2 : R.val td ≤ 1e8) :
    ∃ a b, ahd td = .ok a ∧ ahd (R.val td) = .ok b ∧ R.fin a ∧ |R.val a - b| ≤ 1e-9 := by
  obtain ⟨a, b, e1, e2, n⟩ := ahd_round R h h1 h2
  exact ⟨a, b, e1, e2, n.fin, n.err⟩

/-! ### Examples -/

/-- Grazing incidence in doubles. -/
example {M : Libm} (h : M.Accurate) : ∃ (a : DoubleOf M) (b : ℝ), aknfe (0.0 : DoubleOf M) = .ok a ∧ aknfe (0 : ℝ) = .ok b ∧ |Double.val a - b| ≤ 1e-11 := by
  obtain ⟨f, v⟩ := fin_zero (ieee h)
  obtain ⟨a, b, e1, e2, -, -, n⟩ := C102_knife (ieee h) _ f (by rw [v]; norm_num)
  rw [v] at e2 n
  exact ⟨a, b, e1, e2, n (by rw [zero_sub, abs_neg, abs_of_pos] <;> norm_num)⟩

/-- Height gains in doubles, below and above 200. -/
example {M : Libm} (h : M.Accurate) : ∃ (a b : DoubleOf M), fht (100.0 : DoubleOf M) 1.0 = .ok a ∧ fht (3000.0 : DoubleOf M) 1.0 = .ok b ∧ Double.Finite a ∧ Double.Finite b := by
  obtain ⟨f1, v1⟩ := Near.lit_int (ieee h) (m := 1000) (s := true) (k := 1) 100 (by norm_num) (by norm_num)
  obtain ⟨f2, v2⟩ := Near.lit_int (ieee h) (m := 30000) (s := true) (k := 1) 3000 (by norm_num) (by norm_num)
  obtain ⟨f3, v3⟩ := Near.lit_int (ieee h) (m := 10) (s := true) (k := 1) 1 (by norm_num) (by norm_num)
  have o : (1.0 : ℝ) = 1 := by norm_num
  obtain ⟨a, -, e1, -, g1, -⟩ := C102_height (ieee h) _ _ f1 f3 (by rw [v1]; norm_num) (by rw [v1]; norm_num) (by rw [v3]; norm_num) (by rw [v3]; norm_num) (by
    intro _
    rw [v1, v3]
    refine ⟨by norm_num, fun _ => ?_⟩
    rw [show (OfScientific.ofScientific 10 true 1 : ℝ) = 1 by norm_num, Real.log_one]
    norm_num)
  obtain ⟨b, -, e2, -, g2, -⟩ := C102_height (ieee h) _ _ f2 f3 (by rw [v2]; norm_num) (by rw [v2]; norm_num) (by rw [v3]; norm_num) (by rw [v3]; norm_num) (by
    rw [v2]; intro k; norm_num at k)
  exact ⟨a, b, e1, e2, g1, g2⟩

/-- The weight at 50 km over hilly terrain. -/
example {M : Libm} (h : M.Accurate) (p : PropSt (DoubleOf M)) (p' : PropSt ℝ) (c : DiffC (DoubleOf M)) (c' : DiffC ℝ) :
    ∃ (a : DoubleOf M) (b : ℝ), adiffWeight 50000.0 { p with diff := some { c with wd1 := 2.0, xd1 := 30000.0 }, dh := 90.0, wn := 5.0 } = .ok a ∧
      adiffWeight 50000.0 { p' with diff := some { c' with wd1 := 2.0, xd1 := 30000.0 }, dh := 90.0, wn := 5.0 } = .ok b ∧ |Double.val a - b| ≤ 1e-10 := by
  obtain ⟨f1, v1⟩ := Near.lit_int (ieee h) (m := 500000) (s := true) (k := 1) 50000 (by norm_num) (by norm_num)
  obtain ⟨f2, v2⟩ := Near.lit_int (ieee h) (m := 20) (s := true) (k := 1) 2 (by norm_num) (by norm_num)
  obtain ⟨f3, v3⟩ := Near.lit_int (ieee h) (m := 300000) (s := true) (k := 1) 30000 (by norm_num) (by norm_num)
  obtain ⟨f4, v4⟩ := Near.lit_int (ieee h) (m := 900) (s := true) (k := 1) 90 (by norm_num) (by norm_num)
  obtain ⟨f5, v5⟩ := Near.lit_int (ieee h) (m := 50) (s := true) (k := 1) 5 (by norm_num) (by norm_num)
  obtain ⟨a, b, e1, e2, -, n, -⟩ := C102_weight (ieee h) 50000.0 { p with diff := some { c with wd1 := 2.0, xd1 := 30000.0 }, dh := 90.0, wn := 5.0 }
    { p' with diff := some { c' with wd1 := 2.0, xd1 := 30000.0 }, dh := 90.0, wn := 5.0 } _ _ rfl rfl f1 (by rw [v1]; norm_num) (by rw [v1]; norm_num)
    ⟨f2, f3, f4, f5⟩ ⟨v2.symm, v3.symm, v4.symm, v5.symm⟩ (by dsimp only; rw [v2, v3, v4, v5]; norm_num) (by dsimp only; rw [v2, v3, v4, v5]; norm_num)
  rw [v1] at e2
  exact ⟨a, b, e1, e2, n⟩

/-- Scattering in doubles. -/
example {M : Libm} (h : M.Accurate) : ∃ (a b : DoubleOf M), h0f (2.0 : DoubleOf M) 2.5 = .ok a ∧ ahd (3000.0 : DoubleOf M) = .ok b ∧ Double.Finite a ∧ Double.Finite b := by
  obtain ⟨f1, v1⟩ := Near.lit_int (ieee h) (m := 20) (s := true) (k := 1) 2 (by norm_num) (by norm_num)
  obtain ⟨f2, v2⟩ := (ieee h).lit 25 true 1 (le_roundBig (by norm_num))
  obtain ⟨f3, v3⟩ := Near.lit_int (ieee h) (m := 30000) (s := true) (k := 1) 3000 (by norm_num) (by norm_num)
  obtain ⟨a, -, e1, -, g1, -⟩ := C102_gain (ieee h) _ _ f1 f2 (by rw [v1]; norm_num) (by rw [v1]; norm_num)
  obtain ⟨b, -, e2, -, g2, -⟩ := C102_scatter (ieee h) _ f3 (by rw [v3]; norm_num) (by rw [v3]; norm_num)
  exact ⟨a, b, e1, e2, g1, g2⟩

end Itm.Props
