import Verif.Lemmas.NearRel

/-! Relative rounding errors of positive numbers of ordinary size. -/

namespace Itm
open Itm.Spec
variable {α : Type} [PyNum α]

/-- `a` is a finite number that approximates `x`, a positive number of ordinary size, up to the fraction `r`. -/
structure RL (R : Rounding α) (a : α) (x r : ℝ) : Prop where
  fin : R.fin a
  err : |R.val a - x| ≤ r * x
  lo : 1e-40 ≤ x
  hi : x ≤ 1e40

namespace RL
variable {R : Rounding α} {a b : α} {x y r s t : ℝ}

theorem pos (h : RL R a x r) : 0 < x := lt_of_lt_of_le (by norm_num) h.lo

theorem nonneg (h : RL R a x r) : 0 ≤ r := by
  by_contra hc
  push Not at hc
  have := (abs_nonneg _).trans h.err
  have := mul_neg_of_neg_of_pos hc h.pos
  linarith

theorem mono (h : RL R a x r) (hr : r ≤ t) : RL R a x t :=
  ⟨h.fin, h.err.trans (mul_le_mul_of_nonneg_right hr h.pos.le), h.lo, h.hi⟩

theorem ge (h : RL R a x r) : (1 - r) * x ≤ R.val a := by have := (abs_le.1 h.err).1; linarith
theorem le (h : RL R a x r) : R.val a ≤ (1 + r) * x := by have := (abs_le.1 h.err).2; linarith

theorem val_pos (h : RL R a x r) (hr : r < 1) : 0 < R.val a := lt_of_lt_of_le (mul_pos (by linarith) h.pos) h.ge

theorem self (h : R.fin a) (h1 : 1e-40 ≤ R.val a) (h2 : R.val a ≤ 1e40) : RL R a (R.val a) 0 := ⟨h, by simp, h1, h2⟩

theorem of_eq (h : R.fin a) (e : R.val a = x) (h1 : 1e-40 ≤ x) (h2 : x ≤ 1e40) : RL R a x 0 := by rw [← e] at *; exact self h h1 h2

/-- One rounding on top of an error. -/
theorem of_rnd {v : ℝ} (hf : R.fin a) (hv : R.val a = R.rnd v) (he : |v - x| ≤ r * x) (h1 : 1e-40 ≤ x) (h2 : x ≤ 1e40) (hr : r ≤ 1 / 4)
    (ht : r + 1.5e-15 ≤ t) : RL R a x t := by
  refine ⟨hf, ?_, h1, h2⟩
  have x0 : 0 < x := lt_of_lt_of_le (by norm_num) h1
  have hb : |v| ≤ 1.25 * x := by
    have k1 := abs_sub_abs_le_abs_sub v x
    rw [abs_of_pos x0] at k1
    have k2 := mul_le_mul_of_nonneg_right hr x0.le
    linarith
  have k3 := Near.rnd_err R hb (by norm_num at h2 ⊢; linarith)
  have k4 := abs_sub_le (R.rnd v) v x
  have k5 := mul_le_mul_of_nonneg_right ht x0.le
  rw [hv]
  norm_num at h1 k3 k5 ⊢
  linarith

theorem lit (R : Rounding α) {m : ℕ} {s : Bool} {k : ℕ} (h1 : 1e-40 ≤ (OfScientific.ofScientific m s k : ℝ)) (h2 : (OfScientific.ofScientific m s k : ℝ) ≤ 1e40) :
    RL R (OfScientific.ofScientific m s k : α) (OfScientific.ofScientific m s k : ℝ) 1.5e-15 := by
  have h0 : (0 : ℝ) ≤ OfScientific.ofScientific m s k := le_trans (by norm_num) h1
  obtain ⟨f, v⟩ := R.lit m s k (le_roundBig (by rw [abs_of_nonneg h0]; exact h2.trans (by norm_num)))
  exact of_rnd (r := 0) f v (by simp) h1 h2 (by norm_num) (by norm_num)

theorem size (h : RL R a x r) (hr : r ≤ 1 / 4) : |R.val a| ≤ 1e41 := by
  have h1 := h.le
  have h2 := h.val_pos (by linarith)
  have h3 := h.hi
  have h4 := mul_le_mul_of_nonneg_right hr h.pos.le
  rw [abs_of_pos h2]
  norm_num at h3 ⊢
  linarith

theorem mul (ha : RL R a x r) (hb : RL R b y s) (hr : r ≤ 1 / 10) (hs : s ≤ 1 / 10) (h1 : 1e-40 ≤ x * y) (h2 : x * y ≤ 1e40)
    (ht : r + s + r * s + 1.5e-15 ≤ t) : RL R (a * b) (x * y) t := by
  have r0 := ha.nonneg
  have s0 := hb.nonneg
  have he : |R.val a * R.val b - x * y| ≤ (r + s + r * s) * (x * y) := by
    rw [show R.val a * R.val b - x * y = x * (R.val b - y) + y * (R.val a - x) + (R.val a - x) * (R.val b - y) by ring]
    have e1 : |x * (R.val b - y)| ≤ x * (s * y) := by
      rw [abs_mul, abs_of_pos ha.pos]; exact mul_le_mul_of_nonneg_left hb.err ha.pos.le
    have e2 : |y * (R.val a - x)| ≤ y * (r * x) := by
      rw [abs_mul, abs_of_pos hb.pos]; exact mul_le_mul_of_nonneg_left ha.err hb.pos.le
    have e3 : |(R.val a - x) * (R.val b - y)| ≤ (r * x) * (s * y) := by
      rw [abs_mul]; exact mul_le_mul ha.err hb.err (abs_nonneg _) (mul_nonneg r0 ha.pos.le)
    have e4 := abs_add_le (x * (R.val b - y) + y * (R.val a - x)) ((R.val a - x) * (R.val b - y))
    have e5 := abs_add_le (x * (R.val b - y)) (y * (R.val a - x))
    have e6 : (r + s + r * s) * (x * y) = x * (s * y) + y * (r * x) + (r * x) * (s * y) := by ring
    linarith
  have hb1 : |R.val a * R.val b| ≤ roundBig := by
    apply le_roundBig
    rw [abs_mul]
    exact (mul_le_mul (ha.size (by linarith)) (hb.size (by linarith)) (abs_nonneg _) (by norm_num)).trans (by norm_num)
  obtain ⟨hf, hv⟩ := R.mul a b ha.fin hb.fin hb1
  have rs : r * s ≤ 1 / 10 * (1 / 10) := mul_le_mul hr hs s0 (by norm_num)
  exact of_rnd hf hv he h1 h2 (by linarith) ht

theorem div (ha : RL R a x r) (hb : RL R b y s) (hr : r ≤ 1 / 10) (hs : s ≤ 1 / 10) (h1 : 1e-40 ≤ x / y) (h2 : x / y ≤ 1e40)
    (ht : (r + s) / (1 - s) + 1.5e-15 ≤ t) : RL R (a / b) (x / y) t ∧ a /! b = .ok (a / b) := by
  have r0 := ha.nonneg
  have s0 := hb.nonneg
  have x0 := ha.pos
  have y0 := hb.pos
  have vb := hb.ge
  have vb0 := hb.val_pos (by linarith)
  have s1 : 0 < 1 - s := by linarith
  have he : |R.val a / R.val b - x / y| ≤ (r + s) / (1 - s) * (x / y) := by
    rw [show R.val a / R.val b - x / y = ((R.val a - x) * y - x * (R.val b - y)) / (R.val b * y) by field_simp; ring, abs_div,
      abs_of_pos (mul_pos vb0 y0)]
    have hnum : |(R.val a - x) * y - x * (R.val b - y)| ≤ (r + s) * x * y := by
      refine (abs_sub _ _).trans ?_
      rw [abs_mul, abs_mul, abs_of_pos y0, abs_of_pos x0]
      have e1 := mul_le_mul_of_nonneg_right ha.err y0.le
      have e2 := mul_le_mul_of_nonneg_left hb.err x0.le
      linarith
    calc _ ≤ (r + s) * x * y / ((1 - s) * y * y) :=
          div_le_div₀ (by positivity) hnum (by positivity) (mul_le_mul_of_nonneg_right vb y0.le)
      _ = (r + s) / (1 - s) * (x / y) := by field_simp
  have q : (r + s) / (1 - s) ≤ 1 / 4 := by rw [div_le_iff₀ s1]; linarith
  have hb1 : |R.val a / R.val b| ≤ roundBig := by
    apply le_roundBig
    have k1 := abs_sub_abs_le_abs_sub (R.val a / R.val b) (x / y)
    have k2 := mul_le_mul_of_nonneg_right q (div_nonneg x0.le y0.le)
    rw [abs_of_pos (div_pos x0 y0)] at k1
    norm_num at h2 ⊢
    linarith
  obtain ⟨hf, hv⟩ := R.div a b ha.fin hb.fin vb0.ne' hb1
  exact ⟨of_rnd hf hv he h1 h2 q ht, pyDiv_round hb.fin vb0.ne'⟩

theorem add (ha : RL R a x r) (hb : RL R b y r) (hr : r ≤ 1 / 10) (h2 : x + y ≤ 1e40) (ht : r + 1.5e-15 ≤ t) : RL R (a + b) (x + y) t := by
  have he : |R.val a + R.val b - (x + y)| ≤ r * (x + y) := by
    rw [show R.val a + R.val b - (x + y) = (R.val a - x) + (R.val b - y) by ring]
    have := abs_add_le (R.val a - x) (R.val b - y)
    have := ha.err
    have := hb.err
    linarith
  have hb1 : |R.val a + R.val b| ≤ roundBig := by
    apply le_roundBig
    have := abs_add_le (R.val a) (R.val b)
    have := ha.size (by linarith)
    have := hb.size (by linarith)
    refine (abs_add_le (R.val a) (R.val b)).trans (le_trans (add_le_add (ha.size (by linarith)) (hb.size (by linarith))) (by norm_num))
  obtain ⟨hf, hv⟩ := R.add a b ha.fin hb.fin hb1
  exact of_rnd hf hv he (by have := ha.lo; have := hb.pos; linarith) h2 (by linarith) ht

theorem sqrt (ha : RL R a x r) (hr : r ≤ 1 / 10) (ht : r + 1.5e-15 ≤ t) (h1 : 1e-40 ≤ √x) (h2 : √x ≤ 1e40) : RL R (PyNum.sqrt a) (√x) t ∧ mathSqrt a = .ok (PyNum.sqrt a) := by
  have hv := ha.val_pos (by linarith)
  obtain ⟨hf, hv'⟩ := R.sqrt a ha.fin hv.le
  have e := NR.sqrt_err (w := 0) hv.le ha.pos.le ha.nonneg le_rfl (by have := ha.err; linarith)
  rw [add_zero] at e
  exact ⟨of_rnd hf hv' e h1 h2 (by linarith) ht, mathSqrt_round ha.fin hv.le⟩

/-- The exponential of a number known up to `e`. -/
theorem exp {e : ℝ} (ha : Near R a x e) (he : e ≤ 1 / 100) (h1 : 1e-40 ≤ Real.exp x) (h2 : Real.exp x ≤ 1e40) (ht : 2 * e + 3e-15 ≤ t) :
    RL R (PyNum.exp a) (Real.exp x) t := by
  have h := ha.exp (M := Real.exp x) (g := t * Real.exp x) le_rfl (by linarith) (h2.trans (by norm_num)) (by
    have := mul_le_mul_of_nonneg_right ht (Real.exp_pos x).le
    norm_num at h1 this ⊢
    linarith)
  exact ⟨h.fin, h.err, h1, h2⟩

end RL

end Itm
