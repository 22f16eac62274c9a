import Verif.Lemmas.ElemRound

/-! The weight between the diffraction formulas in rounding arithmetic. -/

namespace Itm
open Itm.Spec
variable {α : Type} [PyNum α] {R : Rounding α}

namespace NP
variable {a b : α} {x y X Y Z r s t u r' t' : ℝ}

theorem self (h : R.fin a) (h0 : 0 ≤ R.val a) (hb : R.val a ≤ X) : NP R a (R.val a) X 0 0 :=
  ⟨NR.self h (by rw [abs_of_nonneg h0]; exact hb), h0, h0⟩

theorem mul (ha : NP R a x X r t) (hb : NP R b y Y s u) (hr : 0 ≤ r) (hs : 0 ≤ s) (ht : 0 ≤ t) (hu : 0 ≤ u) (hZ : X * Y ≤ Z)
    (hM : (1 + (r + s + r * s)) * Z + (u * X * (1 + r) + t * Y * (1 + s) + t * u) ≤ 1e100)
    (hr' : (r + s + r * s) * (1 + 1e-15) + 1e-15 ≤ r')
    (ht' : (u * X * (1 + r) + t * Y * (1 + s) + t * u) * (1 + 1e-15) + 1e-100 ≤ t') : NP R (a * b) (x * y) Z r' t' := by
  have n := ha.toNR.mul hb.toNR hr hs ht hu hZ hM hr' ht'
  refine ⟨n, mul_nonneg ha.xnn hb.xnn, ?_⟩
  have h1 := ha.toNR.abs_val hr
  have h2 := hb.toNR.abs_val hs
  have hX := ha.toNR.X_nonneg
  have hY := hb.toNR.X_nonneg
  have h3 : |R.val a * R.val b| ≤ 1e100 := by
    rw [abs_mul]
    refine (mul_le_mul h1 h2 (abs_nonneg _) (by positivity)).trans (le_trans (le_of_eq_of_le ?_ (add_le_add_left (mul_le_mul_of_nonneg_left hZ ?_) _)) hM)
    · ring
    · positivity
  rw [(R.mul a b ha.fin hb.fin (le_roundBig h3)).2]
  exact rnd_nonneg R (mul_nonneg ha.vnn hb.vnn)

theorem min (ha : NP R a x X r t) (hb : NP R b y Y s u) (hr : 0 ≤ r) (hr1 : r ≤ 1) (hs : s ≤ r) (hu : u ≤ t) : NP R (pyMin a b) (Min.min x y) X r t := by
  have e1 := ha.err
  have e2 := hb.err
  have b1 := ha.bound
  rw [abs_of_nonneg ha.xnn] at e1 b1
  rw [abs_of_nonneg hb.xnn] at e2
  have e2' : |R.val b - y| ≤ r * y + t := e2.trans (add_le_add (mul_le_mul_of_nonneg_right hs hb.xnn) hu)
  have m0 : 0 ≤ Min.min x y := le_min ha.xnn hb.xnn
  have mx := min_le_left x y
  rw [abs_le] at e1 e2'
  have key : ∀ {c : α}, R.fin c → R.val c = Min.min (R.val a) (R.val b) → NP R c (Min.min x y) X r t := by
    intro c hc hv
    refine ⟨⟨hc, ?_, by rw [abs_of_nonneg m0]; exact mx.trans b1⟩, m0, by rw [hv]; exact le_min ha.vnn hb.vnn⟩
    rw [hv, abs_of_nonneg m0, abs_le]
    rcases min_choice x y with h | h <;> rcases min_choice (R.val a) (R.val b) with k | k <;> rw [h, k]
    · exact ⟨by linarith [e1.1], by linarith [e1.2]⟩
    · have := min_eq_right_iff.1 k
      have := min_eq_left_iff.1 h
      constructor
      · nlinarith [e2'.1]
      · linarith [e1.2]
    · have := min_eq_left_iff.1 k
      have := min_eq_right_iff.1 h
      constructor
      · nlinarith [e1.1]
      · linarith [e2'.2]
    · exact ⟨by linarith [e2'.1], by linarith [e2'.2]⟩
  unfold pyMin
  split_ifs with h
  · rw [R.lt _ _ hb.fin ha.fin] at h
    exact key hb.fin (min_eq_right h.le).symm
  · rw [R.lt _ _ hb.fin ha.fin, not_lt] at h
    exact key ha.fin (min_eq_left h).symm

end NP

namespace Props

/-- `1 - 0.8 * exp(-d / 50e3)`. -/
theorem fill_round (R : Rounding α) {d : α} (hd : R.fin d) (d1 : 0 ≤ R.val d) (d2 : R.val d ≤ 1e7) :
    NP R (1.0 - 0.8 * PyNum.exp (-d / 50e3)) (1.0 - 0.8 * Real.exp (-R.val d / 50e3)) 1 1e-11 0 := by
  have o1 := Near.lit_int R (m := 10) (s := true) (k := 1) 1 (by norm_num) (by norm_num)
  have t1 := Near.lit_int R (m := 50) (s := false) (k := 3) 50000 (by norm_num) (by norm_num)
  have l1 : NB R (1.0 : α) (1.0 : ℝ) 1 0 := ⟨Near.of_eq o1.1 o1.2, by norm_num⟩
  have l2 : NB R (0.8 : α) (0.8 : ℝ) 0.8 1e-15 := NB.lit R (by norm_num) (by norm_num) (by norm_num)
  have b : |(-R.val d / 50e3)| ≤ 200 := by
    rw [abs_div, abs_neg, abs_of_nonneg d1, abs_of_pos (by norm_num), div_le_iff₀ (by norm_num)]
    norm_num at *; linarith
  obtain ⟨q, -⟩ := (Near.self hd).neg.div (Near.of_eq t1.1 t1.2) (m := 50e3) (M := 200) (g := 3e-13) b (le_abs_self _) (by norm_num) (by norm_num) (by norm_num) (by norm_num)
  have x1 : Real.exp (-R.val d / 50e3) ≤ 1 := Real.exp_le_one_iff.2 (div_nonpos_of_nonpos_of_nonneg (by linarith) (by norm_num))
  have x0 := Real.exp_pos (-R.val d / 50e3)
  have x2 : NB R (PyNum.exp (-d / 50e3)) (Real.exp (-R.val d / 50e3)) 1 7e-13 :=
    ⟨q.exp (M := 1) x1 (by norm_num) (by norm_num) (by norm_num), by rw [abs_of_pos x0]; exact x1⟩
  have m : NB R (0.8 * PyNum.exp (-d / 50e3)) (0.8 * Real.exp (-R.val d / 50e3)) 0.8 8e-13 := l2.mul x2 (by norm_num) (by norm_num) (by norm_num)
  have s : NB R (1.0 - 0.8 * PyNum.exp (-d / 50e3)) (1.0 - 0.8 * Real.exp (-R.val d / 50e3)) 1.8 1e-12 := l1.sub m (by norm_num) (by norm_num) (by norm_num)
  have y0 : 0.2 ≤ 1.0 - 0.8 * Real.exp (-R.val d / 50e3) := by
    clear * - x1
    generalize Real.exp (-R.val d / 50e3) = z at *
    norm_num at *; linarith
  have y1 : 1.0 - 0.8 * Real.exp (-R.val d / 50e3) ≤ 1 := by
    clear * - x0
    generalize Real.exp (-R.val d / 50e3) = z at *
    norm_num at *; linarith
  have ya : |1.0 - 0.8 * Real.exp (-R.val d / 50e3)| = 1.0 - 0.8 * Real.exp (-R.val d / 50e3) := abs_of_nonneg (le_trans (by norm_num) y0)
  have g := s.toNear.ge
  have g' := s.err
  generalize (1.0 - 0.8 * Real.exp (-R.val d / 50e3) : ℝ) = y at *
  refine ⟨⟨s.fin, g'.trans ?_, by rw [ya]; exact y1⟩, le_trans (by norm_num) y0, ?_⟩
  · rw [ya]; clear * - y0; norm_num at *; linarith
  · clear * - y0 g; norm_num at *; linarith

theorem weight_round (R : Rounding α) {d : α} {p : PropSt α} {p' : PropSt ℝ} {c : DiffC α} {c' : DiffC ℝ} (hp : p.diff = some c) (hp' : p'.diff = some c')
    (hd : R.fin d) (d1 : 1 ≤ R.val d) (d2 : R.val d ≤ 1e7)
    (w0 : R.fin c.wd1) (w1 : c'.wd1 = R.val c.wd1) (w2 : 0 ≤ R.val c.wd1) (w3 : R.val c.wd1 ≤ 1e6)
    (x0 : R.fin c.xd1) (x1 : c'.xd1 = R.val c.xd1) (x2 : 0 ≤ R.val c.xd1) (x3 : R.val c.xd1 ≤ 1e9)
    (h0 : R.fin p.dh) (h1 : p'.dh = R.val p.dh) (h2 : 0 ≤ R.val p.dh) (h3 : R.val p.dh ≤ 1e5)
    (n0 : R.fin p.wn) (n1 : p'.wn = R.val p.wn) (n2 : 0 ≤ R.val p.wn) (n3 : R.val p.wn ≤ 1e4) :
    ∃ a b, adiffWeight d p = .ok a ∧ adiffWeight (R.val d) p' = .ok b ∧ Near R a b 1e-10 ∧ 0 < b ∧ b ≤ 1 := by
  have dp : 0 < R.val d := by linarith
  have f := fill_round R hd dp.le d2
  have f1 : NP R ((1.0 - 0.8 * PyNum.exp (-d / 50e3)) * p.dh) ((1.0 - 0.8 * Real.exp (-R.val d / 50e3)) * R.val p.dh) 1e5 1.1e-11 1e-99 :=
    f.mul (NP.self h0 h2 h3) (by norm_num) le_rfl le_rfl le_rfl (by norm_num) (by norm_num) (by norm_num) (by norm_num)
  have f2 : NP R ((1.0 - 0.8 * PyNum.exp (-d / 50e3)) * p.dh * p.wn) ((1.0 - 0.8 * Real.exp (-R.val d / 50e3)) * R.val p.dh * R.val p.wn) 1e9 1.2e-11 1e-94 :=
    f1.mul (NP.self n0 n2 n3) (by norm_num) le_rfl (by norm_num) le_rfl (by norm_num) (by norm_num) (by norm_num) (by norm_num)
  have l : NP R (6283.2 : α) (6283.2 : ℝ) 6283.2 1e-15 1e-100 := by
    have l := NR.lit R (m := 62832) (s := true) (k := 1) (X := 6283.2) (by norm_num) (by norm_num)
    refine ⟨l, by norm_num, ?_⟩
    rw [(R.lit 62832 true 1 (le_roundBig (by norm_num))).2]
    exact rnd_nonneg R (by norm_num)
  have f3 := f2.min l (by norm_num) (by norm_num) (by norm_num) (by norm_num)
  have f4 : NP R (pyMin ((1.0 - 0.8 * PyNum.exp (-d / 50e3)) * p.dh * p.wn) 6283.2)
      (min ((1.0 - 0.8 * Real.exp (-R.val d / 50e3)) * R.val p.dh * R.val p.wn) 6283.2) 6283.2 1.2e-11 1e-94 :=
    ⟨f3.toNR.tight (by rw [abs_of_nonneg f3.xnn]; exact min_le_right _ _), f3.xnn, f3.vnn⟩
  obtain ⟨g0, g⟩ := (NP.self x0 x2 x3).div (NP.self hd dp.le d2).toNR (m := 1) (w := 0) (Z := 1e9) (r' := 1e-15) (t' := 1e-100) (by norm_num) d1 le_rfl le_rfl le_rfl
    (by norm_num) (by norm_num) le_rfl (by norm_num) (by norm_num) (by norm_num) (by norm_num)
  have g1 : NP R (c.wd1 + c.xd1 / d) (R.val c.wd1 + R.val c.xd1 / R.val d) 2e9 3e-15 1e-99 :=
    ((NP.self w0 w2 w3).mono (by norm_num : (0 : ℝ) ≤ 1e-15) (by norm_num : (0 : ℝ) ≤ 1e-100)).add g le_rfl (by norm_num) (by norm_num) (by norm_num) (by norm_num) (by norm_num) (by norm_num) (by norm_num)
  have q := g1.mul f4 (Z := 1e14) (r' := 1.3e-11) (t' := 1e-80) (by norm_num) (by norm_num) (by norm_num) (by norm_num) (by norm_num) (by norm_num) (by norm_num) (by norm_num)
  obtain ⟨s0, s⟩ := q.sqrt (w := 1e-40) (Z := 1e7) (r' := 1.4e-11) (t' := 1e-39) (by norm_num) (by norm_num) (by norm_num) (by norm_num) (by norm_num) (by norm_num) (by norm_num) (by norm_num)
  have k : NP R (25.1 : α) (25.1 : ℝ) 25.1 1e-15 1e-100 := by
    have l := NR.lit R (m := 251) (s := true) (k := 1) (X := 25.1) (by norm_num) (by norm_num)
    refine ⟨l, by norm_num, ?_⟩
    rw [(R.lit 251 true 1 (le_roundBig (by norm_num))).2]
    exact rnd_nonneg R (by norm_num)
  have sx := Real.sqrt_nonneg ((R.val c.wd1 + R.val c.xd1 / R.val d) * min ((1.0 - 0.8 * Real.exp (-R.val d / 50e3)) * R.val p.dh * R.val p.wn) 6283.2)
  have a1 := (k.toNR.mono (by norm_num : (1e-15 : ℝ) ≤ 1.4e-11) le_rfl).add s (Z := 2e7) (r' := 1.5e-11) (t' := 1e-38) k.xnn sx le_rfl (by norm_num) (by norm_num)
    (by norm_num) (by norm_num) (by norm_num) (by norm_num) (by norm_num)
  obtain ⟨e, z⟩ := k.div a1 (m := 25.1) (w := 1.6e-11) (Z := 1) (r' := 3e-11) (t' := 1e-99) (by norm_num) (le_add_of_nonneg_right sx) (by norm_num) (by norm_num) (by norm_num)
    (by norm_num) (by norm_num) (by norm_num) (by norm_num) (by norm_num) (by norm_num) (by norm_num)
  have tp : 0 < 25.1 + √((R.val c.wd1 + R.val c.xd1 / R.val d) * min ((1.0 - 0.8 * Real.exp (-R.val d / 50e3)) * R.val p.dh * R.val p.wn) 6283.2) :=
    lt_of_lt_of_le (by norm_num) (le_add_of_nonneg_right sx)
  refine ⟨_, _, ?_, ?_, (z.toNR.toNB (g := 1e-10) (by norm_num) (by norm_num)).toNear, div_pos (by norm_num) tp, (le_abs_self _).trans z.bound⟩
  · unfold adiffWeight
    rw [hp]
    simp only [need, ok_bind]
    rw [g0, ok_bind, s0, ok_bind, e]
  · unfold adiffWeight
    rw [hp']
    simp only [need, ok_bind]
    rw [w1, x1, h1, n1, pyDiv_ok dp.ne', ok_bind, rexp, pyMin_real, mathSqrt_ok q.xnn, ok_bind, pyDiv_ok tp.ne']

end Props
end Itm
