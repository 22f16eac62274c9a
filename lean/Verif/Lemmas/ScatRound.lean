import Verif.Lemmas.TableLip
import Verif.Lemmas.ElemRound
import Verif.Lemmas.AdiffRound
import Verif.Lemmas.PrepRound
import Verif.Lemmas.RefineScat
import Verif.Spec.ScatData

/-! Forward scatter in rounding arithmetic. -/

namespace Itm
open Itm.Spec
variable {α : Type} [PyNum α] {R : Rounding α}

/-- `a` approximates `x` up to the fraction `e` of the scale `s`, which bounds `x`. -/
structure NS (R : Rounding α) (a : α) (x s e : ℝ) : Prop where
  fin : R.fin a
  err : |R.val a - x| ≤ e * s
  bound : |x| ≤ s
  lo : 1e-40 ≤ s
  hi : s ≤ 1e40

namespace NS
variable {a b : α} {x y s t e f g : ℝ}

theorem pos (h : NS R a x s e) : 0 < s := lt_of_lt_of_le (by norm_num) h.lo

theorem nonneg (h : NS R a x s e) : 0 ≤ e := by
  have := (abs_nonneg _).trans h.err
  by_contra hc
  have := mul_neg_of_neg_of_pos (not_le.1 hc) h.pos
  linarith

theorem of_rnd {v : ℝ} (hf : R.fin a) (hv : R.val a = R.rnd v) (he : |v - x| ≤ e * s) (hb : |x| ≤ s) (h1 : 1e-40 ≤ s) (h2 : s ≤ 1e40) (hr : e ≤ 1 / 4)
    (ht : e + 1.5e-15 ≤ g) : NS R a x s g := by
  refine ⟨hf, ?_, hb, h1, h2⟩
  have s0 : 0 < s := lt_of_lt_of_le (by norm_num) h1
  have hb : |v| ≤ 1.25 * s := by
    have k1 := abs_sub_abs_le_abs_sub v x
    have k2 := mul_le_mul_of_nonneg_right hr s0.le
    linarith
  have k3 := Near.rnd_err R hb (by norm_num at h2 ⊢; linarith)
  have k4 := abs_sub_le (R.rnd v) v x
  have k5 := mul_le_mul_of_nonneg_right ht s0.le
  rw [hv]
  norm_num at h1 k3 k5 ⊢
  linarith

theorem of_rl (h : RL R a x e) : NS R a x x e := ⟨h.fin, h.err, by rw [abs_of_pos h.pos], h.lo, h.hi⟩

theorem size (h : NS R a x s e) (he : e ≤ 1 / 4) : |R.val a| ≤ 1e41 := by
  have k1 := abs_sub_abs_le_abs_sub (R.val a) x
  have k2 := mul_le_mul_of_nonneg_right he h.pos.le
  have := h.err
  have := h.bound
  have := h.hi
  norm_num at *; linarith

theorem mul (ha : NS R a x s e) (hb : NS R b y t f) (he : e ≤ 1 / 10) (hf : f ≤ 1 / 10) (h1 : 1e-40 ≤ s * t) (h2 : s * t ≤ 1e40)
    (hg : e + f + e * f + 1.5e-15 ≤ g) : NS R (a * b) (x * y) (s * t) g := by
  have e0 := ha.nonneg
  have f0 := hb.nonneg
  have s0 := ha.pos
  have t0 := hb.pos
  have hh : |R.val a * R.val b - x * y| ≤ (e + f + e * f) * (s * t) := by
    rw [show R.val a * R.val b - x * y = x * (R.val b - y) + y * (R.val a - x) + (R.val a - x) * (R.val b - y) by ring]
    have e1 : |x * (R.val b - y)| ≤ s * (f * t) := by
      rw [abs_mul]; exact mul_le_mul ha.bound hb.err (abs_nonneg _) s0.le
    have e2 : |y * (R.val a - x)| ≤ t * (e * s) := by
      rw [abs_mul]; exact mul_le_mul hb.bound ha.err (abs_nonneg _) t0.le
    have e3 : |(R.val a - x) * (R.val b - y)| ≤ (e * s) * (f * t) := by
      rw [abs_mul]; exact mul_le_mul ha.err hb.err (abs_nonneg _) (mul_nonneg e0 s0.le)
    have e4 := abs_add_le (x * (R.val b - y) + y * (R.val a - x)) ((R.val a - x) * (R.val b - y))
    have e5 := abs_add_le (x * (R.val b - y)) (y * (R.val a - x))
    have e6 : (e + f + e * f) * (s * t) = s * (f * t) + t * (e * s) + (e * s) * (f * t) := by ring
    linarith
  have hb1 : |R.val a * R.val b| ≤ roundBig := by
    apply le_roundBig
    rw [abs_mul]
    exact (mul_le_mul (ha.size (by linarith)) (hb.size (by linarith)) (abs_nonneg _) (by norm_num)).trans (by norm_num)
  obtain ⟨hf', hv⟩ := R.mul a b ha.fin hb.fin hb1
  have ef : e * f ≤ 1 / 10 * (1 / 10) := mul_le_mul he hf f0 (by norm_num)
  exact of_rnd hf' hv hh (by rw [abs_mul]; exact mul_le_mul ha.bound hb.bound (abs_nonneg _) s0.le) h1 h2 (by linarith) hg

theorem div (ha : NS R a x s e) (hb : RL R b y f) (he : e ≤ 1 / 10) (hf : f ≤ 1 / 10) (h1 : 1e-40 ≤ s / y) (h2 : s / y ≤ 1e40)
    (ht : (e + f) / (1 - f) + 1.5e-15 ≤ g) : NS R (a / b) (x / y) (s / y) g ∧ a /! b = .ok (a / b) := by
  have e0 := ha.nonneg
  have f0 := hb.nonneg
  have s0 := ha.pos
  have y0 := hb.pos
  have vb := hb.ge
  have vb0 := hb.val_pos (by linarith)
  have s1 : 0 < 1 - f := by linarith
  have hh : |R.val a / R.val b - x / y| ≤ (e + f) / (1 - f) * (s / y) := by
    rw [show R.val a / R.val b - x / y = ((R.val a - x) * y - x * (R.val b - y)) / (R.val b * y) by field_simp; ring, abs_div,
      abs_of_pos (mul_pos vb0 y0)]
    have hnum : |(R.val a - x) * y - x * (R.val b - y)| ≤ (e + f) * s * y := by
      refine (abs_sub _ _).trans ?_
      rw [abs_mul, abs_mul, abs_of_pos y0]
      have e1 := mul_le_mul_of_nonneg_right ha.err y0.le
      have e2 := mul_le_mul ha.bound hb.err (abs_nonneg _) s0.le
      linarith
    calc _ ≤ (e + f) * s * y / ((1 - f) * y * y) :=
          div_le_div₀ (by positivity) hnum (by positivity) (mul_le_mul_of_nonneg_right vb y0.le)
      _ = (e + f) / (1 - f) * (s / y) := by field_simp
  have q : (e + f) / (1 - f) ≤ 1 / 4 := by rw [div_le_iff₀ s1]; linarith
  have bd : |x / y| ≤ s / y := by rw [abs_div, abs_of_pos y0]; exact div_le_div_of_nonneg_right ha.bound y0.le
  have hb1 : |R.val a / R.val b| ≤ roundBig := by
    apply le_roundBig
    have k1 := abs_sub_abs_le_abs_sub (R.val a / R.val b) (x / y)
    have k2 := mul_le_mul_of_nonneg_right q (div_pos s0 y0).le
    norm_num at h2 ⊢
    linarith
  obtain ⟨hf', hv⟩ := R.div a b ha.fin hb.fin vb0.ne' hb1
  exact ⟨of_rnd hf' hv hh bd h1 h2 q ht, pyDiv_round hb.fin vb0.ne'⟩

end NS

theorem NB.min {a b : α} {x y X Y e f g Z : ℝ} (ha : NB R a x X e) (hb : NB R b y Y f) (he : e ≤ g) (hf : f ≤ g) (hX : X ≤ Z) (hY : Y ≤ Z) :
    NB R (pyMin a b) (Min.min x y) Z g := by
  obtain ⟨f1, v⟩ := pyMin_val ha.fin hb.fin
  refine ⟨⟨f1, ?_⟩, ?_⟩
  · rw [v]
    exact (abs_min_sub_min_le_max _ _ _ _).trans (max_le (ha.err.trans he) (hb.err.trans hf))
  · rcases min_choice x y with h | h <;> rw [h]
    · exact ha.bound.trans hX
    · exact hb.bound.trans hY

theorem NB.max {a b : α} {x y X Y e f g Z : ℝ} (ha : NB R a x X e) (hb : NB R b y Y f) (he : e ≤ g) (hf : f ≤ g) (hX : X ≤ Z) (hY : Y ≤ Z) :
    NB R (pyMax a b) (Max.max x y) Z g := by
  refine ⟨(pyMax_round ha.toNear hb.toNear).mono (max_le he hf), ?_⟩
  rcases max_choice x y with h | h <;> rw [h]
  · exact ha.bound.trans hX
  · exact hb.bound.trans hY

theorem RL.max {a b : α} {x y r : ℝ} (ha : RL R a x r) (hb : RL R b y r) : RL R (pyMax a b) (Max.max x y) r := by
  have e := (pyMax_round ⟨ha.fin, ha.err⟩ ⟨hb.fin, hb.err⟩ : Near R (pyMax a b) (Max.max x y) (Max.max (r * x) (r * y)))
  refine ⟨e.fin, ?_, ha.lo.trans (le_max_left _ _), max_le ha.hi hb.hi⟩
  rw [mul_max_of_nonneg _ _ ha.nonneg]
  exact e.err

namespace Props

/-- The frequency gain for arguments that have been computed. -/
theorem h0f_rel {r e : α} {r' e' δ : ℝ} (hr : RL R r r' 1e-10) (h1 : 1e-5 ≤ r') (h2 : r' ≤ 1e5) (he : Near R e e' δ) :
    ∃ v w, h0f r e = .ok v ∧ h0f r' e' = .ok w ∧ NB R v w 435 (5e-9 + 40 * δ) ∧ 0 ≤ w := by
  have rp := hr.pos
  have b1 := hr.ge
  have b2 := hr.le
  have vp := hr.val_pos (by norm_num)
  have v1 : 1e-6 ≤ R.val r := by clear * - b1 h1; norm_num at *; linarith
  have v2 : R.val r ≤ 1e6 := by clear * - b2 h2; norm_num at *; linarith
  obtain ⟨v, w, e1, e2, n⟩ := h0f_round R hr.fin v1 v2 he.fin
  rw [h0f_ok vp.ne', ok_inj] at e2
  refine ⟨v, _, e1, h0f_ok rp.ne', ⟨⟨n.fin, ?_⟩, ?_⟩, tableR_nonneg (sq_nonneg _)⟩
  · have x0 : 0 ≤ (1.0 / R.val r) ^ 2 := sq_nonneg _
    have y0 : 0 ≤ (1.0 / r') ^ 2 := sq_nonneg _
    have key : ∀ {u v : ℝ}, 0 < u → 0 < v → v ≤ (1 + 2e-10) * u → (1.0 / u) ^ 2 ≤ (1 + 5e-10) * (1.0 / v) ^ 2 := by
      intro u v hu hv huv
      rw [div_pow, div_pow, mul_div_assoc', div_le_div_iff₀ (by positivity) (by positivity)]
      have := pow_le_pow_left₀ hv.le huv 2
      have e : ((1 + 2e-10) * u) ^ 2 ≤ (1 + 5e-10) * u ^ 2 := by
        rw [mul_pow]; exact mul_le_mul_of_nonneg_right (by norm_num) (sq_nonneg u)
      have : v ^ 2 ≤ (1 + 5e-10) * u ^ 2 := this.trans e
      have k : (0 : ℝ) ≤ 1.0 ^ 2 := by norm_num
      calc 1.0 ^ 2 * v ^ 2 ≤ 1.0 ^ 2 * ((1 + 5e-10) * u ^ 2) := mul_le_mul_of_nonneg_left this k
        _ = (1 + 5e-10) * 1.0 ^ 2 * u ^ 2 := by rw [← mul_assoc, mul_comm (1.0 ^ 2) (1 + 5e-10)]
    have s1 := table_scale (R.val e) y0 x0 (by norm_num) (key vp rp (by clear * - b1 rp; norm_num at *; linarith))
    have s2 := table_scale (R.val e) x0 y0 (by norm_num) (key rp vp (by clear * - b2 rp; norm_num at *; linarith))
    have s3 := (table_lip y0 (R.val e) e').trans (mul_le_mul_of_nonneg_left he.err (by norm_num))
    have s4 := n.err
    rw [← e2] at s4
    clear * - s1 s2 s3 s4
    generalize tableR ((1.0 / R.val r) ^ 2) (R.val e) = A at *
    generalize tableR ((1.0 / r') ^ 2) (R.val e) = B at *
    generalize tableR ((1.0 / r') ^ 2) e' = C at *
    rw [abs_le] at *
    norm_num at *
    constructor <;> linarith [s3.1, s3.2, s4.1, s4.2]
  · have x0 : 0 ≤ (1.0 / r') ^ 2 := sq_nonneg _
    have x1 : (1.0 / r') ^ 2 ≤ 1e10 := by
      rw [div_pow, div_le_iff₀ (by positivity)]
      have := pow_le_pow_left₀ (by norm_num) h1 2
      norm_num at *; linarith
    rw [abs_of_nonneg (tableR_nonneg x0)]
    refine (tableR_le x0).trans ?_
    generalize (1.0 / r') ^ 2 = x at *
    have a := rowArg_ge 4 x0
    have l := log_size (x := (rowA 4 * x + rowB 4) * x + 1.0) (le_trans (by norm_num) a) (by
      have x2 : x * x ≤ 1e10 * 1e10 := mul_le_mul x1 x1 x0 (by norm_num)
      rw [row_expand]
      simp only [rowA, rowB]
      clear * - x1 x2
      norm_num at *; linarith)
    have := (abs_le.1 l).2
    unfold rowR
    generalize Real.log _ = y at *
    clear * - this
    norm_num at *; linarith

theorem pow_six {a : α} {x e : ℝ} (h : NB R a x 1.7 e) (he : e ≤ 1e-11) : NB R (npow a 6) (x ^ 6) 25 (90 * e + 4e-13) := by
  have e0 := h.toNear.nonneg
  have l : NB R (1.0 : α) (1 : ℝ) 1 0 := by
    obtain ⟨f, v⟩ := Near.lit_int R (m := 10) (s := true) (k := 1) 1 (by norm_num) (by norm_num)
    exact ⟨Near.of_eq f (by rw [v]; norm_num), by norm_num⟩
  have q : e * e ≤ 1e-11 * e := mul_le_mul_of_nonneg_right he e0
  have m1 := l.mul h (Z := 1.7) (g := 1.001 * e + 2e-15) (by norm_num) (by norm_num at *; linarith) (by norm_num at *; linarith)
  have m2 := m1.mul h (Z := 2.89) (g := 3.41 * e + 1e-14) (by norm_num) (by norm_num at *; nlinarith) (by norm_num at *; nlinarith)
  have m3 := m2.mul h (Z := 4.914) (g := 8.7 * e + 3e-14) (by norm_num) (by norm_num at *; nlinarith) (by norm_num at *; nlinarith)
  have m4 := m3.mul h (Z := 8.354) (g := 19.75 * e + 7e-14) (by norm_num) (by norm_num at *; nlinarith) (by norm_num at *; nlinarith)
  have m5 := m4.mul h (Z := 14.202) (g := 42 * e + 1.5e-13) (by norm_num) (by norm_num at *; nlinarith) (by norm_num at *; nlinarith)
  have m6 := m5.mul h (Z := 25) (g := 90 * e + 4e-13) (by norm_num) (by norm_num at *; nlinarith) (by norm_num at *; nlinarith)
  have e6 : 1 * x * x * x * x * x * x = x ^ 6 := by ring
  rw [e6] at m6
  exact m6

/-- The scatter efficiency. -/
theorem eta_core {q z m : α} {q' z' m' Z e : ℝ} (hm : NB R m m' 1.7 e) (he : e ≤ 1e-11) (m0 : 0 ≤ m') (hq : NB R q q' 1 0) (hz : NB R z z' Z 4e-8)
    (hZ0 : 1 ≤ Z) (hZ : Z ≤ 2.5e6) (z0 : 0 ≤ z') (hs : (200 * e + 1e-12) * Z ≤ 3e-5) :
    Near R ((q * PyNum.exp (-(npow m 6)) + 1.0) * z / 1.7556e3) ((q' * Real.exp (-m' ^ 6) + 1) * z' / 1755.6) 2e-8 ∧
    0 ≤ (q' * Real.exp (-m' ^ 6) + 1) * z' / 1755.6 ∧ (q' * Real.exp (-m' ^ 6) + 1) * z' / 1755.6 ≤ 2900 := by
  have e0 := hm.toNear.nonneg
  have l : NB R (1.0 : α) (1 : ℝ) 1 0 := by
    obtain ⟨f, v⟩ := Near.lit_int R (m := 10) (s := true) (k := 1) 1 (by norm_num) (by norm_num)
    exact ⟨Near.of_eq f (by rw [v]; norm_num), by norm_num⟩
  have ee : Real.exp (-m' ^ 6) ≤ 1 := by
    rw [Real.exp_le_one_iff]; have := pow_nonneg m0 6; linarith
  have ep := Real.exp_pos (-m' ^ 6)
  have p6 := pow_six hm he
  have x1 : Near R (PyNum.exp (-(npow m 6))) (Real.exp (-m' ^ 6)) (181 * e + 8.1e-13) :=
    p6.toNear.neg.exp (M := 1) ee (by norm_num at *; linarith) (by norm_num) (by norm_num at *; linarith)
  generalize Real.exp (-m' ^ 6) = E at *
  have x2 : NB R (PyNum.exp (-(npow m 6))) E 1 (181 * e + 8.1e-13) := ⟨x1, by rw [abs_of_pos ep]; exact ee⟩
  have x3 := hq.mul x2 (Z := 1) (g := 182 * e + 8.2e-13) (by norm_num) (by norm_num at *; linarith) (by norm_num at *; linarith)
  have x4 := x3.add l (Z := 2) (g := 183 * e + 8.3e-13) (by norm_num) (by norm_num at *; linarith) (by norm_num at *; linarith)
  have eZ : e * Z ≤ 1e-11 * Z := mul_le_mul_of_nonneg_right he (by linarith)
  have x5 := x4.mul hz (Z := 2 * Z) (g := 3.2e-5) le_rfl (by norm_num at *; nlinarith) (by norm_num at *; nlinarith)
  have lo : 0 ≤ q' * E + 1 := by
    have := abs_le.1 x3.bound
    linarith [this.1]
  have hi : q' * E + 1 ≤ 2 := by
    have := abs_le.1 x3.bound
    linarith [this.2]
  have zb := (abs_le.1 hz.bound).2
  have t : (q' * E + 1) * z' ≤ 2 * 2.5e6 := mul_le_mul hi (zb.trans hZ) z0 (by norm_num)
  have t0 := mul_nonneg lo z0
  have ld : Near R (1.7556e3 : α) (1755.6 : ℝ) 2e-12 := by
    have := Near.lit R (m := 17556) (s := true) (k := 1) (M := 1800) (g := 2e-12) (by norm_num) (by norm_num) (by norm_num)
    rwa [show (OfScientific.ofScientific 17556 true 1 : ℝ) = 1755.6 by norm_num] at this
  have up : (q' * E + 1) * z' / 1755.6 ≤ 2900 := by rw [div_le_iff₀ (by norm_num)]; norm_num at *; linarith
  have dn : 0 ≤ (q' * E + 1) * z' / 1755.6 := div_nonneg t0 (by norm_num)
  refine ⟨(x5.toNear.div ld (Q := 2900) (m := 1755) (M := 2901) (by rw [abs_of_nonneg dn]; exact up) (by norm_num) (by norm_num) (by norm_num) (by norm_num)
    (by norm_num)).1, dn, up⟩

/-- What remains of the frequency gain when the scatter parameters, the asymmetry and the efficiency are known. -/
def gainTail {β : Type} [PyNum β] (r1 r2 ss q et : β) : Py β := do
  let f1 ← h0f r1 (pyMax et 1.0)
  let f2 ← h0f r2 (pyMax et 1.0)
  let l1 ← npLog (pyMax et 1.0)
  let l2 ← npLog (pyMax 0.1 ss)
  let l3 ← npLog (pyMin (pyMax 0.1 q) 10.0)
  let h0 := pyMax ((f1 + f2) * 0.5 + pyMin ((f1 + f2) * 0.5) ((1.38 - l1) * l2 * l3 * 0.49)) 0.0
  if et < 1.0 then do
    let u1 ← 1.4142 /! r1
    let u2 ← 1.4142 /! r2
    let u3 ← (npow ((1.0 + u1) * (1.0 + u2)) 2 * (r1 + r2)) /! (r1 + r2 + 2.8284)
    let u4 ← npLog u3
    pure (et * h0 + (1.0 - et) * 4.343 * u4)
  else pure h0

theorem gainC_tail {β : Type} [PyNum β] (d : β) (p : PropSt β) (s : ScatPrep β) : gainC d p s = (do
    let ss ← (d - s.ad) /! (d + s.ad)
    let q ← s.rr /! ss
    let z0 ← ((d - s.ad) * (d + s.ad) * (ascatR d p).1 * 0.25) /! d
    gainTail (ascatR d p).2.1 (ascatR d p).2.2 ss q ((s.etq * PyNum.exp (-(npow (pyMin 1.7 (z0 / 8.0e3)) 6)) + 1.0) * z0 / 1.7556e3)) := rfl

/-- The gain without the correction for small efficiencies. -/
theorem h0_round {r1 r2 ss q et : α} {x1 x2 s' q' e' : ℝ} (h1 : RL R r1 x1 1e-10) (a1 : 1e-5 ≤ x1) (b1 : x1 ≤ 1e5) (h2 : RL R r2 x2 1e-10) (a2 : 1e-5 ≤ x2)
    (b2 : x2 ≤ 1e5) (hs : RL R ss s' 1e-14) (s1 : s' ≤ 1) (hq : RL R q q' 1e-14) (he : Near R et e' 2e-8) (e1 : e' ≤ 2900) :
    ∃ f1 f2 l1 l2 l3 f1' f2' l1' l2' l3', h0f r1 (pyMax et 1.0) = .ok f1 ∧ h0f r2 (pyMax et 1.0) = .ok f2 ∧ npLog (pyMax et 1.0) = .ok l1 ∧
      npLog (pyMax 0.1 ss) = .ok l2 ∧ npLog (pyMin (pyMax 0.1 q) 10.0) = .ok l3 ∧
      h0f x1 (pyMax e' 1.0) = .ok f1' ∧ h0f x2 (pyMax e' 1.0) = .ok f2' ∧ npLog (pyMax e' 1.0) = .ok l1' ∧
      npLog (pyMax 0.1 s') = .ok l2' ∧ npLog (pyMin (pyMax 0.1 q') 10.0) = .ok l3' ∧
      NB R (pyMax ((f1 + f2) * 0.5 + pyMin ((f1 + f2) * 0.5) ((1.38 - l1) * l2 * l3 * 0.49)) 0.0)
        (pyMax ((f1' + f2') * 0.5 + pyMin ((f1' + f2') * 0.5) ((1.38 - l1') * l2' * l3' * 0.49)) 0.0) 871 2e-6 := by
  simp only [pyMax_real, pyMin_real]
  obtain ⟨of, ov⟩ := Near.lit_int R (m := 10) (s := true) (k := 1) 1 (by norm_num) (by norm_num)
  obtain ⟨hf, hv⟩ := Near.lit_exact R (m := 5) (s := true) (k := 1) 1 (-1) (by norm_num) (by norm_num) (by norm_num) (by norm_num)
  obtain ⟨zf, zv⟩ := fin_zero R
  have o1 : Near R (1.0 : α) (1.0 : ℝ) 0 := Near.of_eq of (by rw [ov])
  have m := (pyMax_round he o1).mono (max_le le_rfl (by norm_num) : _ ≤ (2e-8 : ℝ))
  have mlo : 1.0 ≤ max e' 1.0 := le_max_right _ _
  have mhi : max e' 1.0 ≤ 2900 := max_le e1 (by norm_num)
  generalize max e' 1.0 = t at *
  generalize pyMax et 1.0 = T at *
  obtain ⟨f1, f1', k1, k1', n1, p1⟩ := h0f_rel h1 a1 b1 m
  obtain ⟨f2, f2', k2, k2', n2, p2⟩ := h0f_rel h2 a2 b2 m
  have rt : RL R T t 2e-8 := ⟨m.fin, m.err.trans (by norm_num at *; linarith), by norm_num at *; linarith, by norm_num at *; linarith⟩
  obtain ⟨c1, g1⟩ := RL.log rt (g := 4.1e-8) (by norm_num) (by norm_num)
  have d1 : |Real.log t| ≤ 8 := by
    have t1 : (1 : ℝ) ≤ t := by norm_num at mlo; exact mlo
    rw [abs_of_nonneg (Real.log_nonneg t1), Real.log_le_iff_le_exp (by linarith)]
    have := Real.exp_one_gt_d9
    have k : (2.7182818283 : ℝ) ^ 8 ≤ Real.exp 1 ^ 8 := pow_le_pow_left₀ (by norm_num) this.le 8
    rw [← Real.exp_nat_mul] at k
    refine mhi.trans (le_trans ?_ (k.trans (by norm_num)))
    norm_num
  have lg : ∀ x : ℝ, 0.1 ≤ x → x ≤ 10 → |Real.log x| ≤ 3 := by
    intro x l u
    have e3 : (10 : ℝ) ≤ Real.exp 3 := by
      have := Real.exp_one_gt_d9
      have k : (2.7182818283 : ℝ) ^ 3 ≤ Real.exp 1 ^ 3 := pow_le_pow_left₀ (by norm_num) this.le 3
      rw [← Real.exp_nat_mul] at k
      refine le_trans ?_ (k.trans (by norm_num))
      norm_num
    have xp : 0 < x := lt_of_lt_of_le (by norm_num) l
    rw [abs_le]
    constructor
    · rw [Real.le_log_iff_exp_le xp, Real.exp_neg]
      exact (inv_anti₀ (by norm_num) e3).trans (le_trans (by norm_num) l)
    · rw [Real.log_le_iff_le_exp xp]; exact u.trans e3
  have tenth : RL R (0.1 : α) (0.1 : ℝ) 1e-14 := (RL.lit R (by norm_num) (by norm_num)).mono (by norm_num)
  have ten : RL R (10.0 : α) (10.0 : ℝ) 1e-14 := (RL.lit R (by norm_num) (by norm_num)).mono (by norm_num)
  obtain ⟨c2, g2⟩ := RL.log (tenth.max hs) (g := 3e-13) (by norm_num) (by norm_num)
  obtain ⟨c3, g3⟩ := RL.log ((tenth.max hq).min ten (by norm_num)) (g := 3e-13) (by norm_num) (by norm_num)
  have d2 := lg (max 0.1 s') (le_max_left _ _) (max_le (by norm_num) (by linarith))
  have d3 := lg (min (max 0.1 q') 10.0) (le_min (le_max_left _ _) (by norm_num)) ((min_le_right _ _).trans (by norm_num))
  have ps : 0 < max 0.1 s' := lt_of_lt_of_le (by norm_num) (le_max_left _ _)
  have pq : 0 < min (max 0.1 q') 10.0 := lt_min (lt_of_lt_of_le (by norm_num) (le_max_left _ _)) (by norm_num)
  refine ⟨f1, f2, _, _, _, f1', f2', _, _, _, k1, k2, c1, c2, c3, k1', k2', npLog_ok rt.pos, npLog_ok ps, npLog_ok pq, ?_⟩
  have g1' := g1.tight d1
  have g2' := g2.tight d2
  have g3' := g3.tight d3
  have half : NB R (0.5 : α) (0.5 : ℝ) 0.5 0 := ⟨Near.of_eq hf (by rw [hv]), by norm_num⟩
  have zero : NB R (0.0 : α) (0.0 : ℝ) 0 0 := ⟨Near.of_eq zf (by rw [zv]; norm_num), by norm_num⟩
  have y1 := (n1.add n2 (Z := 870) (g := 1.62e-6) (by norm_num) (by norm_num) (by norm_num)).mul half (Z := 435) (g := 8.2e-7) (by norm_num) (by norm_num) (by norm_num)
  have y2 := (NB.lit R (m := 138) (s := true) (k := 2) (X := 1.38) (g := 2e-15) (by norm_num) (by norm_num) (by norm_num)).sub g1' (Z := 10) (g := 4.2e-8)
    (by norm_num) (by norm_num) (by norm_num)
  have y3 := y2.mul g2' (Z := 30) (g := 1.3e-7) (by norm_num) (by norm_num) (by norm_num)
  have y4 := y3.mul g3' (Z := 90) (g := 4e-7) (by norm_num) (by norm_num) (by norm_num)
  have y5 := y4.mul (NB.lit R (m := 49) (s := true) (k := 2) (X := 0.49) (g := 2e-15) (by norm_num) (by norm_num) (by norm_num)) (Z := 45) (g := 2.1e-7)
    (by norm_num) (by norm_num) (by norm_num)
  have y6 := y1.add (y1.min y5 (Z := 435) (g := 8.2e-7) le_rfl (by norm_num) le_rfl (by norm_num)) (Z := 871) (g := 1.7e-6) (by norm_num) (by norm_num) (by norm_num)
  exact y6.max zero (by norm_num) (by norm_num) le_rfl (by norm_num)

theorem small_round {r1 r2 : α} {x1 x2 : ℝ} (h1 : RL R r1 x1 1e-10) (a1 : 1e-5 ≤ x1) (b1 : x1 ≤ 1e5) (h2 : RL R r2 x2 1e-10) (a2 : 1e-5 ≤ x2)
    (b2 : x2 ≤ 1e5) :
    ∃ u1 u2 u3 u4 u1' u2' u3' u4', 1.4142 /! r1 = .ok u1 ∧ 1.4142 /! r2 = .ok u2 ∧
      (npow ((1.0 + u1) * (1.0 + u2)) 2 * (r1 + r2)) /! (r1 + r2 + 2.8284) = .ok u3 ∧ npLog u3 = .ok u4 ∧
      1.4142 /! x1 = .ok u1' ∧ 1.4142 /! x2 = .ok u2' ∧
      (npow ((1.0 + u1') * (1.0 + u2')) 2 * (x1 + x2)) /! (x1 + x2 + 2.8284) = .ok u3' ∧ npLog u3' = .ok u4' ∧ NB R u4 u4' 100 3e-9 := by
  have p1 := h1.pos
  have p2 := h2.pos
  have frac : ∀ {x : ℝ}, 1e-5 ≤ x → x ≤ 1e5 → 1e-5 ≤ 1.4142 / x ∧ 1.4142 / x ≤ 2e5 := by
    intro x l u
    have xp : 0 < x := lt_of_lt_of_le (by norm_num) l
    rw [le_div_iff₀ xp, div_le_iff₀ xp]
    norm_num at *; constructor <;> linarith
  obtain ⟨c1, c2⟩ := frac a1 b1
  obtain ⟨c3, c4⟩ := frac a2 b2
  have l : RL R (1.4142 : α) (1.4142 : ℝ) 1.5e-15 := RL.lit R (by norm_num) (by norm_num)
  have one : RL R (1.0 : α) (1.0 : ℝ) 1.01e-10 := (RL.lit R (by norm_num) (by norm_num)).mono (by norm_num)
  obtain ⟨q1, o1⟩ := l.div h1 (t := 1.01e-10) (by norm_num) (by norm_num) (le_trans (by norm_num) c1) (c2.trans (by norm_num)) (by norm_num)
  obtain ⟨q2, o2⟩ := l.div h2 (t := 1.01e-10) (by norm_num) (by norm_num) (le_trans (by norm_num) c3) (c4.trans (by norm_num)) (by norm_num)
  have e1 := pyDiv_ok (x := 1.4142) p1.ne'
  have e2 := pyDiv_ok (x := 1.4142) p2.ne'
  generalize 1.4142 / x1 = y1 at *
  generalize 1.4142 / x2 = y2 at *
  have s1 := one.add q1 (t := 1.02e-10) (by norm_num) (by norm_num at *; linarith) (by norm_num)
  have s2 := one.add q2 (t := 1.02e-10) (by norm_num) (by norm_num at *; linarith) (by norm_num)
  have g1 : 1 ≤ 1.0 + y1 := by norm_num at *; linarith
  have g2 : 1 ≤ 1.0 + y2 := by norm_num at *; linarith
  have k1 : 1.0 + y1 ≤ 3e5 := by norm_num at *; linarith
  have k2 : 1.0 + y2 ≤ 3e5 := by norm_num at *; linarith
  have pl : 1 ≤ (1.0 + y1) * (1.0 + y2) := one_le_mul_of_one_le_of_one_le g1 g2
  have pu : (1.0 + y1) * (1.0 + y2) ≤ 3e5 * 3e5 := mul_le_mul k1 k2 (by linarith) (by norm_num)
  have m := s1.mul s2 (t := 2.05e-10) (by norm_num) (by norm_num) (le_trans (by norm_num) pl) (pu.trans (by norm_num)) (by norm_num)
  generalize hP : (1.0 + y1) * (1.0 + y2) = P at *
  have P2 : 1 ≤ P ^ 2 := one_le_pow₀ pl
  have P3 : P ^ 2 ≤ (3e5 * 3e5) ^ 2 := pow_le_pow_left₀ (by linarith) pu 2
  have m2 := m.sq_rel (t := 4.4e-10) (by norm_num) (le_trans (by norm_num) P2) (pu.trans (by norm_num)) (by norm_num)
  generalize hQ : P ^ 2 = Q at *
  have sm := h1.add h2 (t := 1.01e-10) (by norm_num) (by norm_num at *; linarith) (by norm_num)
  have S1 : 2e-5 ≤ x1 + x2 := by norm_num at *; linarith
  have S2 : x1 + x2 ≤ 2e5 := by norm_num at *; linarith
  have den := sm.add ((RL.lit R (m := 28284) (s := true) (k := 4) (by norm_num) (by norm_num)).mono (by norm_num : _ ≤ (1.01e-10 : ℝ))) (t := 1.02e-10) (by norm_num)
    (by norm_num at *; linarith) (by norm_num)
  generalize x1 + x2 = S at *
  have T1 : 1 * 2e-5 ≤ Q * S := mul_le_mul P2 S1 (by norm_num) (by linarith)
  have T2 : Q * S ≤ (3e5 * 3e5) ^ 2 * 2e5 := mul_le_mul P3 S2 (by norm_num at *; linarith) (by norm_num)
  have num := m2.mul sm (t := 5.5e-10) (by norm_num) (by norm_num) (le_trans (by norm_num) T1) (T2.trans (by norm_num)) (by norm_num)
  have D1 : 2.8 ≤ S + 2.8284 := by norm_num at *; linarith
  have D2 : S + 2.8284 ≤ 3e5 := by norm_num at *; linarith
  have dp : 0 < S + 2.8284 := lt_of_lt_of_le (by norm_num) D1
  obtain ⟨dv, o3⟩ := num.div den (t := 7e-10) (by norm_num) (by norm_num) (by
      rw [le_div_iff₀ dp]; generalize Q * S = V at *; clear * - T1 D2; norm_num at *; linarith)
    (by rw [div_le_iff₀ dp]; generalize Q * S = V at *; clear * - T2 D1; norm_num at *; linarith) (by norm_num)
  obtain ⟨o4, n⟩ := RL.log dv (g := 3e-9) (by norm_num) (by norm_num)
  refine ⟨_, _, _, _, y1, y2, Q * S / (S + 2.8284), _, o1, o2, o3, o4, e1, e2, ?_, npLog_ok dv.pos, n⟩
  rw [npow_real, hP, hQ]; exact pyDiv_ok dp.ne'

/-- The correction for small efficiencies. -/
theorem mix_round {et h l : α} {e' h' l' : ℝ} (he : Near R et e' 2e-8) (e0 : 0 ≤ e') (e1 : e' ≤ 1.1) (hh : NB R h h' 871 2e-6) (hl : NB R l l' 100 3e-9) :
    NB R (et * h + (1.0 - et) * 4.343 * l) (e' * h' + (1.0 - e') * 4.343 * l') 1450 3e-5 := by
  obtain ⟨of, ov⟩ := Near.lit_int R (m := 10) (s := true) (k := 1) 1 (by norm_num) (by norm_num)
  have one : Near R (1.0 : α) (1.0 : ℝ) 0 := Near.of_eq of (by rw [ov])
  have a : NB R et e' 1.1 2e-8 := ⟨he, by rw [abs_of_nonneg e0]; exact e1⟩
  have ab : |1.0 - e'| ≤ 1 := by rw [abs_le]; norm_num at *; constructor <;> linarith
  have b : NB R (1.0 - et) (1.0 - e') 1 2.1e-8 := ⟨one.sub he (M := 1.1) (by norm_num at *; linarith) (by norm_num) (by norm_num), ab⟩
  have c := b.mul (NB.lit R (m := 4343) (s := true) (k := 3) (X := 4.343) (g := 5e-15) (by norm_num) (by norm_num) (by norm_num)) (Z := 4.343) (g := 9.2e-8)
    (by norm_num) (by norm_num) (by norm_num)
  have d := c.mul hl (Z := 434.3) (g := 9.3e-6) (by norm_num) (by norm_num) (by norm_num)
  have e := a.mul hh (Z := 960) (g := 2e-5) (by norm_num) (by norm_num) (by norm_num)
  exact e.add d (by norm_num) (by norm_num) (by norm_num)

/-- Small efficiencies and the others meet without a jump. -/
theorem mix_gap {e h l : ℝ} (he : |e - 1| ≤ 2e-8) (hh : |h| ≤ 871) (hl : |l| ≤ 100) : |e * h + (1.0 - e) * 4.343 * l - h| ≤ 2.8e-5 := by
  have o : (1.0 : ℝ) = 1 := by norm_num
  rw [o, show e * h + (1 - e) * 4.343 * l - h = (e - 1) * (h - 4.343 * l) by ring, abs_mul]
  have k := abs_sub h (4.343 * l)
  rw [abs_mul] at k
  have : |h - 4.343 * l| ≤ 1400 := by
    have e4 : |(4.343 : ℝ)| = 4.343 := abs_of_pos (by norm_num)
    rw [e4] at k
    norm_num at *; linarith
  exact (mul_le_mul he this (abs_nonneg _) (by norm_num)).trans (by norm_num)

theorem gainTail_round {r1 r2 ss q et : α} {x1 x2 s' q' e' : ℝ} (h1 : RL R r1 x1 1e-10) (a1 : 1e-5 ≤ x1) (b1 : x1 ≤ 1e5) (h2 : RL R r2 x2 1e-10) (a2 : 1e-5 ≤ x2)
    (b2 : x2 ≤ 1e5) (hs : RL R ss s' 1e-14) (s1 : s' ≤ 1) (hq : RL R q q' 1e-14) (he : Near R et e' 2e-8) (e0 : 0 ≤ e') (e1 : e' ≤ 2900) :
    ∃ g w, gainTail r1 r2 ss q et = .ok g ∧ gainTail x1 x2 s' q' e' = .ok w ∧ NB R g w 1450 6e-5 := by
  obtain ⟨f1, f2, l1, l2, l3, f1', f2', l1', l2', l3', t1, t2, t3, t4, t5, t1', t2', t3', t4', t5', n⟩ := h0_round h1 a1 b1 h2 a2 b2 hs s1 hq he e1
  obtain ⟨u1, u2, u3, u4, u1', u2', u3', u4', w1, w2, w3, w4, w1', w2', w3', w4', m⟩ := small_round h1 a1 b1 h2 a2 b2
  unfold gainTail
  rw [t1, t2, t3, t4, t5, t1', t2', t3', t4', t5', w1, w2, w1', w2']
  simp only [ok_bind]
  rw [w3, w3']
  simp only [ok_bind]
  rw [w4, w4']
  simp only [ok_bind, pure_ok]
  generalize pyMax ((f1 + f2) * 0.5 + pyMin ((f1 + f2) * 0.5) ((1.38 - l1) * l2 * l3 * 0.49)) 0.0 = H at *
  generalize pyMax ((f1' + f2') * 0.5 + pyMin ((f1' + f2') * 0.5) ((1.38 - l1') * l2' * l3' * 0.49)) 0.0 = H' at *
  obtain ⟨of, ov⟩ := Near.lit_int R (m := 10) (s := true) (k := 1) 1 (by norm_num) (by norm_num)
  have o : (1.0 : ℝ) = 1 := by norm_num
  have c : et < (1.0 : α) ↔ R.val et < 1 := by rw [R.lt et _ he.fin of, ov, o]
  have ge := abs_le.1 he.err
  by_cases k : R.val et < 1 <;> by_cases k' : e' < 1
  · rw [if_pos (c.2 k), if_pos (by rw [o]; exact k')]
    exact ⟨_, _, rfl, rfl, (mix_round he e0 (by norm_num; linarith) n m).mono (by norm_num)⟩
  · rw [if_pos (c.2 k), if_neg (by rw [o]; exact k')]
    have y := mix_round he e0 (by norm_num at *; linarith) n m
    have z := mix_gap (e := e') (by rw [abs_le]; constructor <;> linarith [ge.1, ge.2]) n.bound m.bound
    refine ⟨_, _, rfl, rfl, ⟨y.fin, ?_⟩, n.bound.trans (by norm_num)⟩
    have := abs_sub_le (R.val (et * H + (1.0 - et) * 4.343 * u4)) (e' * H' + (1.0 - e') * 4.343 * u4') H'
    have := y.err
    norm_num at *; linarith
  · rw [if_neg (mt c.1 k), if_pos (by rw [o]; exact k')]
    have z := mix_gap (e := e') (by rw [abs_le]; constructor <;> linarith [ge.1, ge.2]) n.bound m.bound
    have y := mix_round (R := R) (et := et) he e0 (by norm_num; linarith) n m
    refine ⟨_, _, rfl, rfl, ⟨n.fin, ?_⟩, y.bound⟩
    have k2 := abs_sub_le (R.val H) H' (e' * H' + (1.0 - e') * 4.343 * u4')
    rw [abs_sub_comm H' _] at k2
    have := n.err
    norm_num at *; linarith
  · rw [if_neg (mt c.1 k), if_neg (by rw [o]; exact k')]
    exact ⟨_, _, rfl, rfl, (n.mono (by norm_num)).tight (n.bound.trans (by norm_num))⟩

theorem gainTail_spec {r1 r2 ss q e v : ℝ} (h : gainTail r1 r2 ss q e = .ok v) :
    v = if e < 1 then e * max ((scatterTable r1 (max e 1) + scatterTable r2 (max e 1)) / 2 + min ((scatterTable r1 (max e 1) + scatterTable r2 (max e 1)) / 2)
          (0.49 * (1.38 - Real.log (max e 1)) * Real.log (max 0.1 ss) * Real.log (min (max 0.1 q) 10))) 0 +
          (1 - e) * (4.343 * Real.log (((1 + 1.4142 / r1) * (1 + 1.4142 / r2)) ^ 2 * (r1 + r2) / (r1 + r2 + 2.8284)))
      else max ((scatterTable r1 (max e 1) + scatterTable r2 (max e 1)) / 2 + min ((scatterTable r1 (max e 1) + scatterTable r2 (max e 1)) / 2)
          (0.49 * (1.38 - Real.log (max e 1)) * Real.log (max 0.1 ss) * Real.log (min (max 0.1 q) 10))) 0 := by
  have one : (1.0 : ℝ) = 1 := by norm_num
  have ten : (10.0 : ℝ) = 10 := by norm_num
  unfold gainTail at h
  simp only [zero_lit, pyMax_real, pyMin_real, npow_real, one, ten] at h
  obtain ⟨f1, hf1, h⟩ := bind_eq_ok.1 h
  obtain ⟨f2, hf2, h⟩ := bind_eq_ok.1 h
  obtain ⟨l1, hl1, h⟩ := bind_eq_ok.1 h
  obtain ⟨l2, hl2, h⟩ := bind_eq_ok.1 h
  obtain ⟨l3, hl3, h⟩ := bind_eq_ok.1 h
  have e1 : (f1 + f2) * 0.5 = (scatterTable r1 (max e 1) + scatterTable r2 (max e 1)) / 2 := by
    rw [h0f_spec hf1, h0f_spec hf2, show (0.5 : ℝ) = 1 / 2 by norm_num]; ring
  have e2 : (1.38 - l1) * l2 * l3 * 0.49 = 0.49 * (1.38 - Real.log (max e 1)) * Real.log (max 0.1 ss) * Real.log (min (max 0.1 q) 10) := by
    rw [(npLog_eq_ok.1 hl1).2, (npLog_eq_ok.1 hl2).2, (npLog_eq_ok.1 hl3).2]; ring
  rw [e1, e2] at h
  by_cases c : e < 1
  · rw [if_pos c] at h ⊢
    obtain ⟨u1, hu1, h⟩ := bind_eq_ok.1 h
    obtain ⟨u2, hu2, h⟩ := bind_eq_ok.1 h
    obtain ⟨u3, hu3, h⟩ := bind_eq_ok.1 h
    obtain ⟨u4, hu4, h⟩ := bind_eq_ok.1 h
    rw [pure_ok, ok_inj] at h
    rw [← h, (npLog_eq_ok.1 hu4).2, (pyDiv_eq_ok.1 hu3).2, (pyDiv_eq_ok.1 hu2).2, (pyDiv_eq_ok.1 hu1).2]
    ring
  · rw [if_neg c] at h ⊢
    rw [pure_ok, ok_inj] at h
    exact h.symm

/-- Sum and difference of numbers taken as they are. -/
theorem RL.sub_self {a b : α} (ha : R.fin a) (hb : R.fin b) (h1 : 1e-40 ≤ R.val a - R.val b) (h2 : R.val a - R.val b ≤ 1e40) :
    RL R (a - b) (R.val a - R.val b) 1.5e-15 := by
  obtain ⟨f, v⟩ := R.sub a b ha hb (le_roundBig (by rw [abs_of_pos (lt_of_lt_of_le (by norm_num) h1)]; exact h2.trans (by norm_num)))
  exact RL.of_rnd f v (r := 0) (by simp) h1 h2 (by norm_num) (by norm_num)

theorem RL.add_self {a b : α} (ha : R.fin a) (hb : R.fin b) (h1 : 1e-40 ≤ R.val a + R.val b) (h2 : R.val a + R.val b ≤ 1e40) :
    RL R (a + b) (R.val a + R.val b) 1.5e-15 := by
  obtain ⟨f, v⟩ := R.add a b ha hb (le_roundBig (by rw [abs_of_pos (lt_of_lt_of_le (by norm_num) h1)]; exact h2.trans (by norm_num)))
  exact RL.of_rnd f v (r := 0) (by simp) h1 h2 (by norm_num) (by norm_num)

/-- The scatter efficiency from the crossover height. -/
theorem eta_round {q z : α} {q' z' s : ℝ} (hq : NB R q q' 1 0) (hz : NS R z z' s 1.46e-14) (hs : s ≤ 2.5e6) (z0 : 0 ≤ z') :
    ∃ t, t = (q' * Real.exp (-(min 1.7 (z' / 8000)) ^ 6) + 1) * z' / 1755.6 ∧
    Near R ((q * PyNum.exp (-(npow (pyMin 1.7 (z / 8.0e3)) 6)) + 1.0) * z / 1.7556e3) t 2e-8 ∧ 0 ≤ t ∧ t ≤ 2900 := by
  refine ⟨_, rfl, ?_⟩
  have sp := hz.pos
  obtain ⟨kf, kv⟩ := Near.lit_int R (m := 80) (s := false) (k := 2) 8000 (by norm_num) (by norm_num)
  have ze : |R.val z - z'| ≤ 4e-8 := hz.err.trans (by clear * - hs; norm_num at *; linarith)
  have zb := hz.bound
  have zs : 0 ≤ z' / 8000 := div_nonneg z0 (by norm_num)
  have l17 := NB.lit R (m := 17) (s := true) (k := 1) (X := 1.7) (g := 2e-15) (by norm_num) (by norm_num) (by norm_num)
  have lo := hz.lo
  have hi := hz.hi
  have u : NB R (z / 8.0e3) (z' / 8000) 313 5.2e-12 := by
    have q1 : |z' / 8000| ≤ 313 := by
      rw [abs_of_nonneg zs, div_le_iff₀ (by norm_num)]
      have := (abs_le.1 zb).2
      clear * - this hs
      norm_num at *; linarith
    have n8 : Near R (8.0e3 : α) (8000 : ℝ) 0 := Near.of_eq kf (by rw [kv]; norm_num)
    have ze' : |R.val z - z'| ≤ 3.66e-8 := hz.err.trans (by clear * - hs; norm_num at *; linarith)
    exact ⟨((⟨hz.fin, ze'⟩ : Near R z z' 3.66e-8).div n8 (Q := 313) (m := 8000) (M := 314) q1 (by norm_num) (by norm_num) (by norm_num) (by norm_num) (by norm_num)).1, q1⟩
  have m0 : 0 ≤ min 1.7 (z' / 8000) := le_min (by norm_num) zs
  have mb : |min 1.7 (z' / 8000)| ≤ 1.7 := by rw [abs_of_nonneg m0]; exact min_le_left _ _
  by_cases c : z' ≤ 2e4
  · refine eta_core (Z := 2e4) (e := 5.2e-12) ((l17.min u (Z := 313) (g := 5.2e-12) (by norm_num) le_rfl (by norm_num) le_rfl).tight mb) (by norm_num) m0 hq
      ⟨⟨hz.fin, ze⟩, by rw [abs_of_nonneg z0]; exact c⟩ (by norm_num) (by norm_num) z0 (by norm_num)
  · have big : 2.5 ≤ z' / 8000 := by rw [le_div_iff₀ (by norm_num)]; norm_num at *; linarith
    obtain ⟨mf, mv⟩ := pyMin_val (R := R) l17.fin u.fin
    have e1 := abs_le.1 l17.err
    have e2 := abs_le.1 u.err
    have me : min 1.7 (z' / 8000) = 1.7 := min_eq_left (le_trans (by norm_num) big)
    have mm : NB R (pyMin 1.7 (z / 8.0e3)) (min 1.7 (z' / 8000)) 1.7 2e-15 := by
      refine ⟨⟨mf, ?_⟩, mb⟩
      rw [mv, me, min_eq_left (by norm_num at *; linarith)]
      exact l17.err
    exact eta_core (Z := 2.5e6) (e := 2e-15) mm (by norm_num) m0 hq ⟨⟨hz.fin, ze⟩, zb.trans hs⟩ (by norm_num) (by norm_num) z0 (by norm_num)

/-- The angles: a sum of an elevation and the curvature of the distance. -/
theorem bend_round {d g t : α} {t' : ℝ} (hd : R.fin d) (d1 : 1 ≤ R.val d) (d2 : R.val d ≤ 1e7) (hg : R.fin g) (g1 : 0 ≤ R.val g) (g2 : R.val g ≤ 2e-7)
    (ht : Near R t t' 2.1e-15) (l : 1e-4 ≤ t' + R.val d * R.val g) (u : t' + R.val d * R.val g ≤ 1) :
    Near R (t + d * g) (t' + R.val d * R.val g) 5.4e-15 := by
  have m : NB R (d * g) (R.val d * R.val g) 2 2.1e-15 :=
    (NB.self hd (X := 1e7) (by rw [abs_of_nonneg (by linarith)]; exact d2)).mul (NB.self hg (X := 2e-7) (by rw [abs_of_nonneg g1]; exact g2)) (by norm_num) (by norm_num)
      (by norm_num)
  exact ht.add m.toNear (M := 1.1) (by rw [abs_of_nonneg (le_trans (by norm_num) l)]; norm_num at *; linarith) (by norm_num) (by norm_num)

set_option maxHeartbeats 1000000 in
theorem gainC_round {d : α} {v : ScatData α} {p : PropSt α} {p' : PropSt ℝ} {s : ScatPrep α} {s' : ScatPrep ℝ} (hp : v.In p) (hp' : (v.map R.val).In p')
    (hs : p.sprep = some s) (hs' : p'.sprep = some s') (hd : R.fin d) (hv : v.All R.fin) (ho : (v.map R.val).Ordinary (R.val d)) :
    ∃ g, gainC d p s = .ok g ∧ gainC (R.val d) p' s' = .ok ((v.map R.val).gain (R.val d)) ∧ NB R g ((v.map R.val).gain (R.val d)) 1450 6e-5 := by
  obtain ⟨i1, i2, i3, i4, i5, i6, i7, -, s₁, i9, i10, i11, i12, i13⟩ := hp
  obtain ⟨j1, j2, j3, j4, j5, j6, j7, -, s₂, j9, j10, j11, j12, j13⟩ := hp'
  obtain rfl : s = s₁ := Option.some.inj (hs.symm.trans i9)
  obtain rfl : s' = s₂ := Option.some.inj (hs'.symm.trans j9)
  obtain ⟨f1, f2, f3, f4, f5, f6, f7, f8, f9, f10, f11, f12⟩ := hv
  obtain ⟨⟨d1, d2⟩, ⟨a0, a1⟩, ⟨t0, t1, -⟩, ⟨g0, g1⟩, ⟨n0, n1⟩, -, ⟨w0, w1⟩, ⟨h0, h0'⟩, ⟨h1, h1'⟩, ⟨r0, r0'⟩, ⟨r1, r1'⟩, ⟨q0, q1⟩, ef, -, -⟩ := ho
  -- the angle
  have tt : Near R (v.the0 + v.the1) (R.val v.the0 + R.val v.the1) 2.1e-15 :=
    ((NB.self f3 t0).add (NB.self f4 t1) (Z := 2) (g := 2.1e-15) (by norm_num) (by norm_num) (by norm_num)).toNear
  have th := bend_round hd d1 d2 f5 g0 g1 tt n0 n1
  have eA : (v.map R.val).angle (R.val d) = R.val v.the0 + R.val v.the1 + R.val d * R.val v.gme := rfl
  rw [← eA] at th
  have rth : RL R (v.the0 + v.the1 + d * v.gme) ((v.map R.val).angle (R.val d)) 5.4e-11 :=
    ⟨th.fin, th.err.trans (by clear * - n0; norm_num at *; linarith), le_trans (by norm_num) n0, n1.trans (by norm_num)⟩
  have rA : ascatR d p = (v.the0 + v.the1 + d * v.gme, 2.0 * v.wn * (v.the0 + v.the1 + d * v.gme) * v.he0, 2.0 * v.wn * (v.the0 + v.the1 + d * v.gme) * v.he1) := by
    unfold ascatR; rw [i1, i2, i3, i4, i5, i6]
  have rB : ascatR (R.val d) p' = ((v.map R.val).angle (R.val d), 2.0 * R.val v.wn * (v.map R.val).angle (R.val d) * R.val v.he0,
      2.0 * R.val v.wn * (v.map R.val).angle (R.val d) * R.val v.he1) := by
    unfold ascatR; rw [j1, j2, j3, j4, j5, j6]; rfl
  have two : (2.0 : ℝ) = 2 := by norm_num
  have ray0 : (v.map R.val).ray (v.map R.val).he0 (R.val d) = 2.0 * R.val v.wn * (v.map R.val).angle (R.val d) * R.val v.he0 := by rw [two]; rfl
  have ray1 : (v.map R.val).ray (v.map R.val).he1 (R.val d) = 2.0 * R.val v.wn * (v.map R.val).angle (R.val d) * R.val v.he1 := by rw [two]; rfl
  have egain : ∀ w, gainTail ((v.map R.val).ray (v.map R.val).he0 (R.val d)) ((v.map R.val).ray (v.map R.val).he1 (R.val d))
      ((R.val d - R.val v.ad) / (R.val d + R.val v.ad)) (R.val v.rr / ((R.val d - R.val v.ad) / (R.val d + R.val v.ad))) ((v.map R.val).eta (R.val d)) = .ok w →
      w = (v.map R.val).gain (R.val d) := by
    intro w hw
    rw [gainTail_spec hw]
    rfl
  rw [ray0] at r0 r0'
  rw [ray1] at r1 r1'
  rw [ray0, ray1] at egain
  simp only [ScatData.map] at a0 a1 w0 w1 h0 h0' h1 h1' q0 q1 ef
  have eeta : (v.map R.val).eta (R.val d) = (R.val v.etq * Real.exp (-(min 1.7 ((v.map R.val).z0 (R.val d) / 8000)) ^ 6) + 1) * (v.map R.val).z0 (R.val d) / 1755.6 := by
    unfold ScatData.eta
    rw [show (v.map R.val).etq = R.val v.etq from rfl]
    ring
  have ez : (v.map R.val).z0 (R.val d) = (R.val d - R.val v.ad) * (R.val d + R.val v.ad) * (v.map R.val).angle (R.val d) * 0.25 / R.val d := by
    unfold ScatData.z0
    rw [show (v.map R.val).ad = R.val v.ad from rfl, show (0.25 : ℝ) = 1 / 4 by norm_num]
    have : R.val d ≠ 0 := by linarith
    field_simp
  generalize (v.map R.val).angle (R.val d) = A at *
  generalize (v.map R.val).eta (R.val d) = E at *
  generalize (v.map R.val).z0 (R.val d) = z0 at *
  generalize (v.map R.val).gain (R.val d) = G at *
  generalize v.the0 + v.the1 + d * v.gme = a at *
  have wp : 0 < R.val v.wn := lt_of_lt_of_le (by norm_num) w0
  have Ap : 0 < A := lt_of_lt_of_le (by norm_num) n0
  -- the scatter parameters
  have k1 : RL R (2.0 * v.wn) (2.0 * R.val v.wn) 3.1e-15 :=
    (RL.lit R (by norm_num) (by norm_num)).mul (RL.self f6 (le_trans (by norm_num) w0) (w1.trans (by norm_num))) (by norm_num) (by norm_num)
      (by clear * - w0; norm_num at *; linarith) (by clear * - w1; norm_num at *; linarith) (by norm_num)
  have m1 : 0.02 * 1e-4 ≤ 2.0 * R.val v.wn * A := mul_le_mul (by clear * - w0; norm_num at *; linarith) n0 (by norm_num) (by clear * - wp; norm_num at *; linarith)
  have m2 : 2.0 * R.val v.wn * A ≤ 2e4 * 1 := mul_le_mul (by clear * - w1; norm_num at *; linarith) n1 Ap.le (by norm_num)
  have k2 : RL R (2.0 * v.wn * a) (2.0 * R.val v.wn * A) 5.41e-11 := k1.mul rth (by norm_num) (by norm_num) (le_trans (by norm_num) m1) (m2.trans (by norm_num)) (by norm_num)
  have x1 : RL R (2.0 * v.wn * a * v.he0) (2.0 * R.val v.wn * A * R.val v.he0) 1e-10 :=
    k2.mul (RL.self f1 (le_trans (by norm_num) h0) (h0'.trans (by norm_num))) (by norm_num) (by norm_num) (le_trans (by norm_num) r0) (r0'.trans (by norm_num)) (by norm_num)
  have x2 : RL R (2.0 * v.wn * a * v.he1) (2.0 * R.val v.wn * A * R.val v.he1) 1e-10 :=
    k2.mul (RL.self f2 (le_trans (by norm_num) h1) (h1'.trans (by norm_num))) (by norm_num) (by norm_num) (le_trans (by norm_num) r1) (r1'.trans (by norm_num)) (by norm_num)
  -- the asymmetry
  have dpos : 0 < R.val d := by linarith
  have U2 : R.val d - R.val v.ad ≤ 1e7 := by linarith
  have V1 : 1 ≤ R.val d + R.val v.ad := by linarith
  have V2 : R.val d + R.val v.ad ≤ 2e7 := by clear * - d2 a1; norm_num at *; linarith
  have u : RL R (d - v.ad) (R.val d - R.val v.ad) 1.5e-15 := RL.sub_self hd f9 (le_trans (by norm_num) a1) (U2.trans (by norm_num))
  have w : RL R (d + v.ad) (R.val d + R.val v.ad) 1.5e-15 := RL.add_self hd f9 (le_trans (by norm_num) V1) (V2.trans (by norm_num))
  have UV : (R.val d - R.val v.ad) * (R.val d + R.val v.ad) ≤ R.val d * R.val d := by nlinarith [mul_self_nonneg (R.val v.ad)]
  have UV1 : 1 ≤ (R.val d - R.val v.ad) * (R.val d + R.val v.ad) := one_le_mul_of_one_le_of_one_le a1 V1
  have UVle : R.val d - R.val v.ad ≤ R.val d + R.val v.ad := by linarith
  generalize hU : R.val d - R.val v.ad = U at *
  generalize hV : R.val d + R.val v.ad = V at *
  have Up : 0 < U := by linarith
  have Vp : 0 < V := by linarith
  have S1 : 1e-8 ≤ U / V := by rw [le_div_iff₀ Vp]; clear * - V2 a1; norm_num at *; linarith
  have S2 : U / V ≤ 1 := by rw [div_le_one Vp]; exact UVle
  obtain ⟨ss, os⟩ := u.div w (t := 4.7e-15) (by norm_num) (by norm_num) (le_trans (by norm_num) S1) (S2.trans (by norm_num)) (by norm_num)
  have Sp : 0 < U / V := div_pos Up Vp
  have os' := pyDiv_ok (x := U) Vp.ne'
  generalize U / V = S at *
  have Q1 : 1e-6 ≤ R.val v.rr / S := by rw [le_div_iff₀ Sp]; clear * - q0 S2; norm_num at *; linarith
  have Q2 : R.val v.rr / S ≤ 1e14 := by rw [div_le_iff₀ Sp]; clear * - q1 S1; norm_num at *; linarith
  obtain ⟨qq, oq⟩ := (RL.self f10 (le_trans (by norm_num) q0) (q1.trans (by norm_num))).div ss (t := 1e-14) (by norm_num) (by norm_num) (le_trans (by norm_num) Q1)
    (Q2.trans (by norm_num)) (by norm_num)
  have oq' := pyDiv_ok (x := R.val v.rr) Sp.ne'
  -- the crossover height
  have UV2 : U * V ≤ 1e7 * 1e7 := UV.trans (mul_le_mul d2 d2 dpos.le (by norm_num))
  have uw : RL R ((d - v.ad) * (d + v.ad)) (U * V) 4.6e-15 := u.mul w (by norm_num) (by norm_num) (le_trans (by norm_num) UV1) (UV2.trans (by norm_num)) (by norm_num)
  obtain ⟨qf, qv⟩ := Near.lit_exact R (m := 25) (s := true) (k := 2) 1 (-2) (by norm_num) (by norm_num) (by norm_num) (by norm_num)
  have quarter : RL R (0.25 : α) (0.25 : ℝ) 0 := RL.of_eq qf qv (by norm_num) (by norm_num)
  have nA : NS R a A 1 5.4e-15 := ⟨th.fin, by rw [mul_one]; exact th.err, by rw [abs_of_pos Ap]; exact n1, by norm_num, by norm_num⟩
  have z1 := (NS.of_rl uw).mul nA (g := 1.152e-14) (by norm_num) (by norm_num) (by rw [mul_one]; exact le_trans (by norm_num) UV1) (by rw [mul_one]; exact UV2.trans (by norm_num))
    (by norm_num)
  have z2 := z1.mul (NS.of_rl quarter) (g := 1.303e-14) (by norm_num) (by norm_num) (by rw [mul_one]; clear * - UV1; norm_num at *; linarith)
    (by rw [mul_one]; clear * - UV2; norm_num at *; linarith) (by norm_num)
  have sz : U * V * 1 * 0.25 / R.val d ≤ 2.5e6 := by
    rw [div_le_iff₀ dpos, mul_one]
    have := mul_le_mul_of_nonneg_right d2 dpos.le
    clear * - UV this; norm_num at *; linarith
  have sz1 : 1e-9 ≤ U * V * 1 * 0.25 / R.val d := by
    rw [le_div_iff₀ dpos, mul_one]
    clear * - UV1 d2; norm_num at *; linarith
  obtain ⟨z3, oz⟩ := z2.div (RL.self hd (le_trans (by norm_num) d1) (d2.trans (by norm_num))) (g := 1.46e-14) (by norm_num) (by norm_num) (le_trans (by norm_num) sz1)
    (sz.trans (by norm_num)) (by norm_num)
  have oz' := pyDiv_ok (x := U * V * A * 0.25) dpos.ne'
  have zp : 0 ≤ U * V * A * 0.25 / R.val d := div_nonneg (mul_nonneg (mul_nonneg (mul_pos Up Vp).le Ap.le) (by norm_num)) dpos.le
  rw [← ez] at z3 oz' zp
  obtain ⟨t, et, nt, t0', t1'⟩ := eta_round (NB.self f11 ef) z3 sz zp
  rw [← eeta] at et
  subst et
  obtain ⟨g, g', og, og', n⟩ := gainTail_round x1 r0 r0' x2 r1 r1' (ss.mono (by norm_num)) S2 qq nt t0' t1'
  have eg := egain _ og'
  rw [← eg]
  refine ⟨g, ?_, ?_, n⟩
  · rw [gainC_tail, i10, i11, i12, rA, os, ok_bind, oq, ok_bind, oz, ok_bind]
    exact og
  · rw [gainC_tail, j10, j11, j12, rB]
    simp only [ScatData.map]
    rw [hU, hV, os', ok_bind, oq', ok_bind, oz', ok_bind]
    rw [← og', eeta, npow_real, pyMin_real, rexp]
    have c1 : (8.0e3 : ℝ) = 8000 := by norm_num
    have c2 : (1.7556e3 : ℝ) = 1755.6 := by norm_num
    have c3 : (1.0 : ℝ) = 1 := by norm_num
    rw [c1, c2, c3]

/-- The attenuation curve away from its jumps. -/
theorem ahd_rel {t : α} {t' : ℝ} (h : RL R t t' 6e-11) (l : 1e-4 ≤ t') (u : t' ≤ 1e7) (c1 : 1e-3 ≤ |t' - 10000|) (c2 : 1e-3 ≤ |t' - 70000|) :
    ∃ v, ahd t = .ok v ∧ ahd t' = .ok (scatterCurve t') ∧ NB R v (scatterCurve t') 4000 2e-7 := by
  have tp := h.pos
  have vp := h.val_pos (by norm_num)
  have e := abs_le.1 h.err
  have v1 : 1e-5 ≤ R.val t := by clear * - e l; norm_num at *; linarith
  have v2 : R.val t ≤ 2e7 := by clear * - e u; norm_num at *; linarith
  obtain ⟨v, w, o1, o2, n⟩ := ahd_round R h.fin (le_trans (by norm_num) v1) (v2.trans (by norm_num))
  have ew := ahd_spec o2
  have tot : ∃ x, ahd t' = .ok x := by
    unfold ahd
    split_ifs <;> (dsimp only; rw [npLog_ok tp, ok_bind, pure_ok]; exact ⟨_, rfl⟩)
  obtain ⟨x, hx⟩ := tot
  refine ⟨v, o1, by rw [hx, ahd_spec hx], ⟨n.fin, ?_⟩, ?_⟩
  · have far : ∀ c : ℝ, 1e-3 ≤ |t' - c| → c ≤ 1e5 → (R.val t ≤ c ↔ t' ≤ c) := by
      intro c hc cu
      have small : t' ≤ 1e5 + 1 → |R.val t - t'| ≤ 1e-4 := fun k => h.err.trans (by clear * - k; norm_num at *; linarith)
      rcases le_abs.1 hc with k | k
      · refine ⟨fun q => ?_, fun q => by clear * - k q; norm_num at *; linarith⟩
        exfalso
        rcases le_or_gt t' (1e5 + 1) with b | b
        · have := abs_le.1 (small b); clear * - this k q; norm_num at *; linarith [this.1]
        · clear * - b e q cu; norm_num at *; linarith [e.1]
      · have b : t' ≤ 1e5 + 1 := by clear * - k cu; norm_num at *; linarith
        have := abs_le.1 (small b)
        constructor <;> intro _ <;> clear * - this k <;> norm_num at * <;> linarith [this.2]
    have f1 := far 10000 c1 (by norm_num)
    have f2 := far 70000 c2 (by norm_num)
    have lg : |Real.log (R.val t) - Real.log t'| ≤ 1.3e-10 := by
      rw [← Real.log_div vp.ne' tp.ne', abs_le]
      have b1 : 1 - 6e-11 ≤ R.val t / t' := by rw [le_div_iff₀ tp]; exact h.ge
      have b2 : R.val t / t' ≤ 1 + 6e-11 := by rw [div_le_iff₀ tp]; exact h.le
      have qp := div_pos vp tp
      have k1 := Real.log_le_sub_one_of_pos qp
      have k2 := Real.one_sub_inv_le_log_of_pos qp
      have k3 : (R.val t / t')⁻¹ ≤ 1 + 1.2e-10 := by
        rw [inv_le_comm₀ qp (by norm_num)]
        exact le_trans (by norm_num) b1
      constructor
      · clear * - k2 k3; norm_num at *; linarith
      · clear * - k1 b2; norm_num at *; linarith
    have ne := n.err
    rw [ew] at ne
    refine (abs_sub_le _ (scatterCurve (R.val t)) _).trans ?_
    have : |scatterCurve (R.val t) - scatterCurve t'| ≤ 1.99e-7 := by
      have lin : |R.val t - t'| ≤ 6e-11 * t' := h.err
      have lin1 : t' ≤ 70000 → |R.val t - t'| ≤ 4.3e-6 := fun k => h.err.trans (by clear * - k; norm_num at *; linarith)
      have lin2 : |R.val t - t'| ≤ 6e-4 := h.err.trans (by clear * - u; norm_num at *; linarith)
      unfold scatterCurve
      rw [abs_le] at lg lin2 ⊢
      by_cases k1 : t' ≤ 10000
      · have q := abs_le.1 (lin1 (by linarith))
        rw [if_pos (f1.2 k1), if_pos k1]
        generalize Real.log (R.val t) = X at *
        generalize Real.log t' = Y at *
        clear * - lg q
        norm_num at *; constructor <;> linarith
      · rw [if_neg (mt f1.1 k1), if_neg k1]
        by_cases k2 : t' ≤ 70000
        · have q := abs_le.1 (lin1 k2)
          rw [if_pos (f2.2 k2), if_pos k2]
          generalize Real.log (R.val t) = X at *
          generalize Real.log t' = Y at *
          clear * - lg q
          norm_num at *; constructor <;> linarith
        · rw [if_neg (mt f2.1 k2), if_neg k2]
          generalize Real.log (R.val t) = X at *
          generalize Real.log t' = Y at *
          clear * - lg lin2
          norm_num at *; constructor <;> linarith
    clear * - this ne; norm_num at *; linarith
  · have lb := abs_le.1 (log_size (x := t') (le_trans (by norm_num) l) (u.trans (by norm_num)))
    unfold scatterCurve
    generalize Real.log t' = Y at *
    rw [abs_le]
    split_ifs <;> clear * - lb l u <;> norm_num at * <;> constructor <;> linarith

/-- The attenuation of a given gain. -/
noncomputable def attOf (v : ScatData ℝ) (d g : ℝ) : ℝ :=
  scatterCurve (v.bend d * d) + 4.343 * Real.log (47.7 * v.wn * v.bend d ^ 4) - 0.1 * (v.ens - 301) * Real.exp (-v.bend d * d / 40000) + g

set_option maxHeartbeats 1000000 in
theorem ascatFinal_round {d g : α} {g' : ℝ} {v : ScatData α} {p : PropSt α} {p' : PropSt ℝ} (hp : v.In p) (hp' : (v.map R.val).In p') (hd : R.fin d) (hv : v.All R.fin)
    (ho : (v.map R.val).Ordinary (R.val d)) (c1 : 1e-3 ≤ |(v.map R.val).bend (R.val d) * R.val d - 10000|)
    (c2 : 1e-3 ≤ |(v.map R.val).bend (R.val d) * R.val d - 70000|) (hg : NB R g g' 10000 6e-5) :
    ∃ a, ascatFinal d g p = .ok a ∧ ascatFinal (R.val d) g' p' = .ok (attOf (v.map R.val) (R.val d) g') ∧ Near R a (attOf (v.map R.val) (R.val d) g') 1e-4 := by
  obtain ⟨-, -, -, -, i5, i6, i7, ⟨h, i8, i9⟩, -⟩ := hp
  obtain ⟨-, -, -, -, j5, j6, j7, ⟨h', j8, j9⟩, -⟩ := hp'
  obtain ⟨f1, f2, f3, f4, f5, f6, f7, f8, f9, f10, f11, f12⟩ := hv
  obtain ⟨⟨d1, d2⟩, -, ⟨-, -, t2⟩, ⟨g0, g1⟩, -, ⟨n0, n1⟩, ⟨w0, w1⟩, -, -, -, -, -, -, en, -⟩ := ho
  have eB : R.val v.tha + R.val d * R.val v.gme = (v.map R.val).bend (R.val d) := rfl
  have th := bend_round hd d1 d2 f5 g0 g1 ((Near.self f8).mono (by norm_num)) n0 n1
  rw [eB] at th
  have rth : RL R (v.tha + d * v.gme) ((v.map R.val).bend (R.val d)) 5.4e-11 :=
    ⟨th.fin, th.err.trans (by clear * - n0; norm_num at *; linarith), le_trans (by norm_num) n0, n1.trans (by norm_num)⟩
  unfold ascatFinal attOf
  rw [i8, j8]
  simp only [need, ok_bind]
  rw [i9, i5, j9, j5, i6, i7, j6, j7]
  simp only [ScatData.map] at t2 w0 w1 en
  have e1 : (v.map R.val).tha + R.val d * (v.map R.val).gme = (v.map R.val).bend (R.val d) := rfl
  rw [e1]
  have e2 : (v.map R.val).wn = R.val v.wn := rfl
  have e3 : (v.map R.val).ens = R.val v.ens := rfl
  rw [e2, e3]
  generalize (v.map R.val).bend (R.val d) = B at *
  generalize v.tha + d * v.gme = b at *
  have Bp : 0 < B := lt_of_lt_of_le (by norm_num) n0
  have dp : 0 < R.val d := by linarith
  have T1 : 1e-4 * 1 ≤ B * R.val d := mul_le_mul n0 d1 (by norm_num) Bp.le
  have T2 : B * R.val d ≤ 1 * 1e7 := mul_le_mul n1 d2 dp.le (by norm_num)
  have rd : RL R d (R.val d) 0 := RL.self hd (le_trans (by norm_num) d1) (d2.trans (by norm_num))
  have td : RL R (b * d) (B * R.val d) 6e-11 := rth.mul rd (by norm_num) (by norm_num) (le_trans (by norm_num) T1) (T2.trans (by norm_num)) (by norm_num)
  obtain ⟨a, o1, o2, na⟩ := ahd_rel td (le_trans (by norm_num) T1) (T2.trans (by norm_num)) c1 c2
  -- the logarithm
  have one : RL R (1.0 : α) (1 : ℝ) 1.5e-15 := by
    have := RL.lit R (m := 10) (s := true) (k := 1) (by norm_num) (by norm_num)
    rwa [show (OfScientific.ofScientific 10 true 1 : ℝ) = 1 by norm_num] at this
  have B2 : 1e-4 * 1e-4 ≤ B * B := mul_le_mul n0 n0 (by norm_num) Bp.le
  have B2' : B * B ≤ 1 * 1 := mul_le_mul n1 n1 Bp.le (by norm_num)
  have B3 : 1e-4 * 1e-4 * 1e-4 ≤ B * B * B := mul_le_mul B2 n0 (by norm_num) (mul_pos Bp Bp).le
  have B3' : B * B * B ≤ 1 * 1 * 1 := mul_le_mul B2' n1 Bp.le (by norm_num)
  have B4 : 1e-4 * 1e-4 * 1e-4 * 1e-4 ≤ B * B * B * B := mul_le_mul B3 n0 (by norm_num) (mul_pos (mul_pos Bp Bp) Bp).le
  have B4' : B * B * B * B ≤ 1 * 1 * 1 * 1 := mul_le_mul B3' n1 Bp.le (by norm_num)
  have p1 := one.mul rth (t := 5.5e-11) (by norm_num) (by norm_num) (by rw [one_mul]; exact le_trans (by norm_num) n0) (by rw [one_mul]; exact n1.trans (by norm_num))
    (by norm_num)
  rw [one_mul] at p1
  have p2 := p1.mul rth (t := 1.1e-10) (by norm_num) (by norm_num) (le_trans (by norm_num) B2) (B2'.trans (by norm_num)) (by norm_num)
  have p3 := p2.mul rth (t := 1.7e-10) (by norm_num) (by norm_num) (le_trans (by norm_num) B3) (B3'.trans (by norm_num)) (by norm_num)
  have p4 := p3.mul rth (t := 2.3e-10) (by norm_num) (by norm_num) (le_trans (by norm_num) B4) (B4'.trans (by norm_num)) (by norm_num)
  have e4 : B * B * B * B = B ^ 4 := by ring
  rw [e4] at p4 B4 B4'
  have p5 : RL R (47.7 * v.wn) (47.7 * R.val v.wn) 3.1e-15 :=
    (RL.lit R (by norm_num) (by norm_num)).mul (RL.self f6 (le_trans (by norm_num) w0) (w1.trans (by norm_num))) (by norm_num) (by norm_num)
      (by clear * - w0; norm_num at *; linarith) (by clear * - w1; norm_num at *; linarith) (by norm_num)
  have wp : 0 < R.val v.wn := lt_of_lt_of_le (by norm_num) w0
  have L1 : 0.4 * (1e-4 * 1e-4 * 1e-4 * 1e-4) ≤ 47.7 * R.val v.wn * B ^ 4 :=
    mul_le_mul (by clear * - w0; norm_num at *; linarith) B4 (by norm_num) (by clear * - wp; norm_num at *; linarith)
  have L2 : 47.7 * R.val v.wn * B ^ 4 ≤ 5e5 * (1 * 1 * 1 * 1) := mul_le_mul (by clear * - w1; norm_num at *; linarith) B4' (by positivity) (by norm_num)
  have p6 : RL R (47.7 * v.wn * npow b 4) (47.7 * R.val v.wn * B ^ 4) 2.4e-10 :=
    p5.mul p4 (by norm_num) (by norm_num) (le_trans (by norm_num) L1) (L2.trans (by norm_num)) (by norm_num)
  obtain ⟨ol, nl⟩ := RL.log p6 (g := 5e-10) (by norm_num) (by norm_num)
  have ol' := npLog_ok p6.pos
  have q1 := (NB.lit R (m := 4343) (s := true) (k := 3) (X := 4.343) (g := 5e-15) (by norm_num) (by norm_num) (by norm_num)).mul nl (Z := 434.3) (g := 3e-9)
    (by norm_num) (by norm_num) (by norm_num)
  have q2 := na.add q1 (Z := 4500) (g := 2.1e-7) (by norm_num) (by norm_num) (by norm_num)
  -- the refractivity
  have r1 := (NB.self f7 en).sub (NB.lit R (m := 3010) (s := true) (k := 1) (X := 301) (g := 1e-12) (by norm_num) (by norm_num) (by norm_num)) (Z := 1301) (g := 3e-12)
    (by norm_num) (by norm_num) (by norm_num)
  have r2 := (NB.lit R (m := 1) (s := true) (k := 1) (X := 0.1) (g := 1e-15) (by norm_num) (by norm_num) (by norm_num)).mul r1 (Z := 130.1) (g := 3e-12)
    (by norm_num) (by norm_num) (by norm_num)
  have nb : NB R (-b) (-B) 1 5.4e-15 := ⟨th.neg, by rw [abs_neg, abs_of_pos Bp]; exact n1⟩
  have nd := nb.mul (NB.self hd (X := 1e7) (by rw [abs_of_pos dp]; exact d2)) (Z := 1e7) (g := 7e-8) (by norm_num) (by norm_num) (by norm_num)
  obtain ⟨kf, kv⟩ := Near.lit_int R (m := 40) (s := false) (k := 3) 40000 (by norm_num) (by norm_num)
  have k4 : Near R (40e3 : α) (40000 : ℝ) 0 := Near.of_eq kf (by rw [kv]; norm_num)
  have dv := (nd.toNear.div k4 (Q := 250) (m := 40000) (M := 251) (g := 3e-12) (by
    rw [abs_div]
    have := nd.bound
    rw [div_le_iff₀ (by norm_num)]
    clear * - this; norm_num at *; linarith) (by norm_num) (by norm_num) (by norm_num) (by norm_num) (by norm_num)).1
  have ex1 : Real.exp (-B * R.val d / 40000) ≤ 1 := by
    rw [Real.exp_le_one_iff, neg_mul]
    have := mul_pos Bp dp
    exact div_nonpos_of_nonpos_of_nonneg (by linarith) (by norm_num)
  have xp := dv.exp (M := 1) (g := 1e-11) ex1 (by norm_num) (by norm_num) (by norm_num)
  have xe : NB R (PyNum.exp (-b * d / 40e3)) (Real.exp (-B * R.val d / 40000)) 1 1e-11 := ⟨xp, by rw [abs_of_pos (Real.exp_pos _)]; exact ex1⟩
  have r3 := r2.mul xe (Z := 130.1) (g := 2e-9) (by norm_num) (by norm_num) (by norm_num)
  have fin1 := q2.sub r3 (Z := 4700) (g := 3e-7) (by norm_num) (by norm_num) (by norm_num)
  have fin2 := fin1.add hg (Z := 15000) (g := 1e-4) (by norm_num) (by norm_num) (by norm_num)
  rw [o1, o2, ok_bind, ol, ok_bind, pure_ok]
  refine ⟨_, rfl, ?_, ?_⟩
  · rw [ok_bind, npow_real, ol', ok_bind, pure_ok, rexp]
    have c301 : (301.0 : ℝ) = 301 := by norm_num
    have c40 : (40e3 : ℝ) = 40000 := by norm_num
    rw [c301, c40]
  · have := fin2.toNear
    rw [show (OfScientific.ofScientific 3010 true 1 : ℝ) = 301 by norm_num] at this
    exact this

theorem ascat_memory {β : Type} [PyNum β] {d : β} {p : PropSt β} {s : ScatPrep β} (hs : p.sprep = some s) (c : 15.0 < s.h0s) {a : β}
    (ha : ascatFinal d s.h0s p = .ok a) : ∃ q, ascat d p = .ok q ∧ q.ascat1 = a := by
  unfold ascat
  rw [hs]
  simp only [need, ok_bind]
  rw [if_pos c]
  simp only [pure_bind]
  rw [ha]
  exact ⟨_, rfl, rfl⟩

theorem ascat_fresh {β : Type} [PyNum β] {d : β} {p : PropSt β} {s : ScatPrep β} (hs : p.sprep = some s) (c : ¬ 15.0 < s.h0s) {h a : β}
    (h0 : ascatH0 d p s = .ok h) (ha : ascatFinal d h p = .ok a) : ∃ q, ascat d p = .ok q ∧ q.ascat1 = a := by
  have k : ∀ x y, ascatH0 d { p with ascat1 := x, sprep := y } s = .ok h := fun _ _ => h0
  have l : ∀ x y, ascatFinal d h { p with ascat1 := x, sprep := y } = .ok a := fun _ _ => ha
  have l2 : ∀ y, ascatFinal d h { p with sprep := y } = .ok a := fun _ => ha
  unfold ascat
  rw [hs]
  simp only [need, ok_bind]
  rw [if_neg c]
  obtain ⟨p1, e1, h1⟩ : ∃ p1, p1 = (if (ascatR d p).2.1 < 0.2 ∧ (ascatR d p).2.2 < 0.2 then { p with ascat1 := 1001.0, sprep := some s } else p) ∧ ascatH0 d p1 s = .ok h ∧
      (∀ y, ascatFinal d h { p1 with sprep := y } = .ok a) ∧ ascatFinal d h p1 = .ok a := by
    refine ⟨_, rfl, ?_⟩
    split_ifs
    · exact ⟨k _ _, fun y => l _ y, l _ _⟩
    · exact ⟨h0, fun y => l2 y, ha⟩
  rw [← e1, h1.1]
  simp only [ok_bind]
  split_ifs
  · simp only [pure_bind]
    rw [h1.2.2]
    exact ⟨_, rfl, rfl⟩
  · simp only [pure_bind]
    rw [h1.2.1]
    exact ⟨_, rfl, rfl⟩

/-- The scatter attenuation in rounding arithmetic. -/
theorem ascat_round (R : Rounding α) {d : α} {v : ScatData α} {p : PropSt α} {p' : PropSt ℝ} (hp : v.In p) (hp' : (v.map R.val).In p') (hd : R.fin d)
    (hv : v.All R.fin) (ho : (v.map R.val).Ordinary (R.val d)) (hc : (v.map R.val).Clear (R.val d)) :
    ∃ q q', ascat d p = .ok q ∧ ascat (R.val d) p' = .ok q' ∧ q'.ascat1 = (v.map R.val).att (R.val d) ∧ Near R q.ascat1 ((v.map R.val).att (R.val d)) 1e-4 := by
  obtain ⟨s, hs, -, -, -, es⟩ := hp.2.2.2.2.2.2.2.2
  obtain ⟨s', hs', -, -, -, es'⟩ := hp'.2.2.2.2.2.2.2.2
  have f12 : R.fin v.h0s := hv.2.2.2.2.2.2.2.2.2.2.2
  obtain ⟨lf, lv⟩ := Near.lit_int R (m := 150) (s := true) (k := 1) 15 (by norm_num) (by norm_num)
  obtain ⟨zf, zv⟩ := fin_zero R
  have e15 : (15.0 : ℝ) = 15 := by norm_num
  have m0 : (v.map R.val).h0s = R.val v.h0s := rfl
  have lt15 : (15.0 : α) < v.h0s ↔ 15 < R.val v.h0s := by rw [R.lt _ _ lf f12, lv, e15]
  have ge0 : (0.0 : α) ≤ v.h0s ↔ 0 ≤ R.val v.h0s := by rw [R.le _ _ zf f12, zv]
  have mem : NB R v.h0s (R.val v.h0s) 10000 6e-5 := ((NB.self f12 ho.memory).mono (by norm_num)).tight (ho.memory.trans (by norm_num))
  have fin : ∀ {g : α} {g' : ℝ}, NB R g g' 10000 6e-5 → ∀ {p₁ : PropSt α} {p₂ : PropSt ℝ}, v.In p₁ → (v.map R.val).In p₂ →
      ∃ a, ascatFinal d g p₁ = .ok a ∧ ascatFinal (R.val d) g' p₂ = .ok (attOf (v.map R.val) (R.val d) g') ∧ Near R a (attOf (v.map R.val) (R.val d) g') 1e-4 :=
    fun hg _ _ h1 h2 => ascatFinal_round h1 h2 hd hv ho hc.curve1 hc.curve2 hg
  have eu : (v.map R.val).att (R.val d) = attOf (v.map R.val) (R.val d) ((v.map R.val).used (R.val d)) := rfl
  by_cases c : 15 < R.val v.h0s
  · obtain ⟨a, o1, o2, n⟩ := fin mem hp hp'
    obtain ⟨q, k1, k2⟩ := ascat_memory hs (by rw [es]; exact lt15.2 c) (by rw [es]; exact o1)
    obtain ⟨q', k3, k4⟩ := ascat_memory hs' (by rw [es', e15]; exact c) (by rw [es']; exact o2)
    have : (v.map R.val).used (R.val d) = R.val v.h0s := by unfold ScatData.used; rw [m0, if_pos (Or.inl c)]
    rw [eu, this]
    exact ⟨q, q', k1, k3, k4, by rw [k2]; exact n⟩
  · obtain ⟨g, g1, g2, ng⟩ := gainC_round hp hp' hs hs' hd hv ho
    have nc : ¬ 15.0 < s.h0s := by rw [es]; exact mt lt15.1 c
    have nc' : ¬ 15.0 < s'.h0s := by rw [es', e15]; exact c
    have lg : (15.0 : α) < g ↔ 15 < R.val g := by rw [R.lt _ _ lf ng.fin, lv, e15]
    have H : ascatH0 d p s = .ok (if 15.0 < g ∧ 0.0 ≤ s.h0s then s.h0s else g) := by rw [ascatH0_gain, g1, ok_bind, pure_ok]
    have H' : ascatH0 (R.val d) p' s' = .ok ((v.map R.val).used (R.val d)) := by
      rw [ascatH0_gain, g2, ok_bind, pure_ok, es', e15, zero_lit]
      unfold ScatData.used
      rw [m0]
      simp only [c, false_or]
    have near : NB R (if 15.0 < g ∧ 0.0 ≤ s.h0s then s.h0s else g) ((v.map R.val).used (R.val d)) 10000 6e-5 := by
      rw [es]
      unfold ScatData.used
      rw [m0]
      simp only [c, false_or]
      by_cases k : 0 ≤ R.val v.h0s
      · have far := hc.gain k (not_lt.1 c)
        have e := abs_le.1 ng.err
        have same : 15.0 < g ↔ 15 < (v.map R.val).gain (R.val d) := by
          rw [lg]
          generalize (v.map R.val).gain (R.val d) = G at *
          clear * - far e
          rcases le_abs.1 far with f | f <;> constructor <;> intro _ <;> norm_num at * <;> linarith
        by_cases b : 15 < (v.map R.val).gain (R.val d)
        · rw [if_pos ⟨same.2 b, ge0.2 k⟩, if_pos ⟨b, k⟩]; exact mem
        · rw [if_neg (fun x => b (same.1 x.1)), if_neg (fun x => b x.1)]; exact ng.tight (ng.bound.trans (by norm_num))
      · rw [if_neg (fun x => k (ge0.1 x.2)), if_neg (fun x => k x.2)]; exact ng.tight (ng.bound.trans (by norm_num))
    obtain ⟨a, o1, o2, n⟩ := fin near hp hp'
    obtain ⟨q, k1, k2⟩ := ascat_fresh hs nc H o1
    obtain ⟨q', k3, k4⟩ := ascat_fresh hs' nc' H' o2
    rw [eu]
    exact ⟨q, q', k1, k3, k4, by rw [k2]; exact n⟩

end Props
end Itm
