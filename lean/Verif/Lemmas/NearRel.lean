import Verif.Lemmas.Near

/-! Propagation of relative rounding errors. -/

namespace Itm
open Itm.Spec
variable {α : Type} [PyNum α]

/-- `a` is a finite number that approximates `x` up to the fraction `r` of `x` and the absolute error `t`, and `x` is at most `X` in size. -/
structure NR (R : Rounding α) (a : α) (x X r t : ℝ) : Prop where
  fin : R.fin a
  err : |R.val a - x| ≤ r * |x| + t
  bound : |x| ≤ X

namespace NR
variable {R : Rounding α} {a b : α} {x y X Y Z r s t u r' t' : ℝ}

theorem mono (h : NR R a x X r t) (hr : r ≤ r') (ht : t ≤ t') : NR R a x X r' t' :=
  ⟨h.fin, h.err.trans (add_le_add (mul_le_mul_of_nonneg_right hr (abs_nonneg _)) ht), h.bound⟩

theorem tight (h : NR R a x X r t) (hx : |x| ≤ Y) : NR R a x Y r t := ⟨h.fin, h.err, hx⟩

theorem self (h : R.fin a) (hb : |R.val a| ≤ X) : NR R a (R.val a) X 0 0 := ⟨h, by simp, hb⟩

theorem of_eq (h : R.fin a) (hv : R.val a = x) (hb : |x| ≤ X) : NR R a x X 0 0 := ⟨h, by rw [hv]; simp, hb⟩

theorem toNB (h : NR R a x X r t) (hr : 0 ≤ r) {g : ℝ} (hg : r * X + t ≤ g) : NB R a x X g :=
  ⟨⟨h.fin, h.err.trans (le_trans (by have := mul_le_mul_of_nonneg_left h.bound hr; linarith) hg)⟩, h.bound⟩

theorem X_nonneg (h : NR R a x X r t) : 0 ≤ X := (abs_nonneg _).trans h.bound

/-- One rounding on top of an error. -/
theorem of_rnd {v : ℝ} (hf : R.fin a) (hv : R.val a = R.rnd v) (he : |v - x| ≤ r * |x| + t) (hb : |x| ≤ X) (hr : 0 ≤ r) (ht : 0 ≤ t)
    (hM : (1 + r) * X + t ≤ 1e100) (hr' : r * (1 + 1e-15) + 1e-15 ≤ r') (ht' : t * (1 + 1e-15) + 1e-100 ≤ t') : NR R a x X r' t' := by
  refine ⟨hf, ?_, hb⟩
  have hx0 := abs_nonneg x
  have h1 : |v| ≤ (1 + r) * |x| + t := by
    have := abs_sub_abs_le_abs_sub v x
    linarith
  have h2 : |v| ≤ 1e100 := by
    refine h1.trans (le_trans ?_ hM)
    have := mul_le_mul_of_nonneg_left hb (by linarith : 0 ≤ 1 + r)
    linarith
  have h3 := Near.rnd_err R (le_refl |v|) h2
  have h4 := abs_sub_le (R.rnd v) v x
  have h5 := mul_le_mul_of_nonneg_right hr' hx0
  rw [hv]
  have h6 : 1e-15 * |v| ≤ 1e-15 * ((1 + r) * |x| + t) := mul_le_mul_of_nonneg_left h1 (by norm_num)
  nlinarith

theorem lit (R : Rounding α) {m : ℕ} {s : Bool} {k : ℕ} (hX : |(OfScientific.ofScientific m s k : ℝ)| ≤ X) (hX' : X ≤ 1e50) :
    NR R (OfScientific.ofScientific m s k : α) (OfScientific.ofScientific m s k : ℝ) X 1e-15 1e-100 := by
  have h0 := (abs_nonneg _).trans hX
  obtain ⟨h1, h2⟩ := R.lit m s k (le_roundBig (hX.trans (hX'.trans (by norm_num))))
  exact of_rnd h1 h2 (r := 0) (t := 0) (by simp) hX le_rfl le_rfl (by norm_num at *; linarith) (by norm_num) (by norm_num)

theorem neg (h : NR R a x X r t) : NR R (-a) (-x) X r t := by
  obtain ⟨h1, h2⟩ := R.neg a h.fin
  refine ⟨h1, ?_, by rw [abs_neg]; exact h.bound⟩
  rw [h2, show -R.val a - -x = -(R.val a - x) by ring, abs_neg, abs_neg]
  exact h.err

theorem mul (ha : NR R a x X r t) (hb : NR R b y Y s u) (hr : 0 ≤ r) (hs : 0 ≤ s) (ht : 0 ≤ t) (hu : 0 ≤ u) (hZ : X * Y ≤ Z)
    (hM : (1 + (r + s + r * s)) * Z + (u * X * (1 + r) + t * Y * (1 + s) + t * u) ≤ 1e100)
    (hr' : (r + s + r * s) * (1 + 1e-15) + 1e-15 ≤ r')
    (ht' : (u * X * (1 + r) + t * Y * (1 + s) + t * u) * (1 + 1e-15) + 1e-100 ≤ t') : NR R (a * b) (x * y) Z r' t' := by
  have hX := ha.X_nonneg
  have hY := hb.X_nonneg
  have hx := abs_nonneg x
  have hy := abs_nonneg y
  have hxy : |x * y| ≤ Z := by
    rw [abs_mul]; exact (mul_le_mul ha.bound hb.bound hy hX).trans hZ
  have he : |R.val a * R.val b - x * y| ≤ (r + s + r * s) * |x * y| + (u * X * (1 + r) + t * Y * (1 + s) + t * u) := by
    rw [show R.val a * R.val b - x * y = x * (R.val b - y) + y * (R.val a - x) + (R.val a - x) * (R.val b - y) by ring]
    have e1 : |x * (R.val b - y)| ≤ |x| * (s * |y| + u) := by
      rw [abs_mul]; exact mul_le_mul_of_nonneg_left hb.err hx
    have e2 : |y * (R.val a - x)| ≤ |y| * (r * |x| + t) := by
      rw [abs_mul]; exact mul_le_mul_of_nonneg_left ha.err hy
    have e3 : |(R.val a - x) * (R.val b - y)| ≤ (r * |x| + t) * (s * |y| + u) := by
      rw [abs_mul]; exact mul_le_mul ha.err hb.err (abs_nonneg _) (by positivity)
    have e4 := abs_add_le (x * (R.val b - y) + y * (R.val a - x)) ((R.val a - x) * (R.val b - y))
    have e5 := abs_add_le (x * (R.val b - y)) (y * (R.val a - x))
    have f1 : u * |x| * (1 + r) ≤ u * X * (1 + r) := by
      have := ha.bound; gcongr
    have f2 : t * |y| * (1 + s) ≤ t * Y * (1 + s) := by
      have := hb.bound; gcongr
    rw [abs_mul x y]
    nlinarith
  have hb1 : |R.val a * R.val b| ≤ roundBig := by
    apply le_roundBig
    have h1 := abs_sub_abs_le_abs_sub (R.val a * R.val b) (x * y)
    have h2 : (r + s + r * s) * |x * y| ≤ (r + s + r * s) * Z := mul_le_mul_of_nonneg_left hxy (by positivity)
    nlinarith
  obtain ⟨hf, hv⟩ := R.mul a b ha.fin hb.fin hb1
  exact of_rnd hf hv he hxy (by positivity) (by positivity) hM hr' ht'

theorem sq (ha : NR R a x X r t) (hr : 0 ≤ r) (ht : 0 ≤ t) (hX : (1 + r) * X + t ≤ 1e100) (hZ : X * X ≤ Z)
    (hM : (1 + (r + r + r * r)) * Z + (t * X * (1 + r) + t * X * (1 + r) + t * t) ≤ 1e100)
    (hr' : (r + r + r * r) * (1 + 1e-15) + 1e-15 ≤ r')
    (ht' : (t * X * (1 + r) + t * X * (1 + r) + t * t) * (1 + 1e-15) + 1e-100 ≤ t') : NR R (npow a 2) (x ^ 2) Z r' t' := by
  have hone := Near.lit_int R (m := 10) (s := true) (k := 1) 1 (by norm_num) (by norm_num)
  have hv1 : R.val ((1.0 : α)) = 1 := by rw [hone.2]; norm_num
  have hva : |R.val a| ≤ 1e100 := by
    have h1 := abs_sub_abs_le_abs_sub (R.val a) x
    have h2 := ha.err
    have h3 := mul_le_mul_of_nonneg_left ha.bound hr
    have h4 := ha.bound
    linarith
  obtain ⟨hf, hv⟩ := R.mul (1.0 : α) a hone.1 ha.fin (by rw [hv1, one_mul]; exact le_roundBig hva)
  have h1 : NR R (npow a 1) x X r t := by
    have e1 : R.val (npow a 1) = R.val a := by
      show R.val ((1.0 : α) * a) = R.val a
      rw [hv, hv1, one_mul, R.val_rnd a ha.fin]
    exact ⟨hf, by rw [e1]; exact ha.err, ha.bound⟩
  have h2 := mul h1 ha hr hr ht ht hZ hM hr' ht'
  rw [pow_two]
  exact h2

/-- The sum of two nonnegative numbers. -/
theorem add (ha : NR R a x X r t) (hb : NR R b y Y s u) (hx : 0 ≤ x) (hy : 0 ≤ y) (hs : s ≤ r) (hr : 0 ≤ r) (ht : 0 ≤ t) (hu : 0 ≤ u)
    (hZ : X + Y ≤ Z) (hM : (1 + r) * Z + (t + u) ≤ 1e100) (hr' : r * (1 + 1e-15) + 1e-15 ≤ r')
    (ht' : (t + u) * (1 + 1e-15) + 1e-100 ≤ t') : NR R (a + b) (x + y) Z r' t' := by
  have hZ' : |x + y| ≤ Z := (abs_add_le x y).trans ((add_le_add ha.bound hb.bound).trans hZ)
  have he : |R.val a + R.val b - (x + y)| ≤ r * |x + y| + (t + u) := by
    rw [show R.val a + R.val b - (x + y) = (R.val a - x) + (R.val b - y) by ring, abs_of_nonneg (by linarith : 0 ≤ x + y)]
    have e1 := ha.err
    have e2 := hb.err
    rw [abs_of_nonneg hx] at e1
    rw [abs_of_nonneg hy] at e2
    have e3 := abs_add_le (R.val a - x) (R.val b - y)
    have e4 := mul_le_mul_of_nonneg_right hs hy
    linarith
  have hb1 : |R.val a + R.val b| ≤ roundBig := by
    apply le_roundBig
    have h1 := abs_sub_abs_le_abs_sub (R.val a + R.val b) (x + y)
    have h2 := mul_le_mul_of_nonneg_left hZ' hr
    linarith
  obtain ⟨hf, hv⟩ := R.add a b ha.fin hb.fin hb1
  exact of_rnd hf hv he hZ' hr (by linarith) hM hr' ht'

/-- Division by a number of at least `m`; `w` bounds the relative error of the divisor. -/
theorem div {m w : ℝ} (ha : NR R a x X r t) (hb : NR R b y Y s u) (hm : 0 < m) (hmy : m ≤ y) (hr : 0 ≤ r) (ht : 0 ≤ t)
    (hu : 0 ≤ u) (hw : s + u / m ≤ w) (hw1 : w ≤ 1 / 2) (hw0 : 0 ≤ w) (hZ : X / m ≤ Z)
    (hM : (1 + (r + w) / (1 - w)) * Z + t / (m * (1 - w)) ≤ 1e100)
    (hr' : (r + w) / (1 - w) * (1 + 1e-15) + 1e-15 ≤ r')
    (ht' : t / (m * (1 - w)) * (1 + 1e-15) + 1e-100 ≤ t') : NR R (a / b) (x / y) Z r' t' ∧ 0 < R.val b := by
  have hy : 0 < y := by linarith
  have hX := ha.X_nonneg
  have hby : |R.val b - y| ≤ w * y := by
    have h1 := hb.err
    rw [abs_of_pos hy] at h1
    have h2 : u ≤ u / m * y := by
      rw [div_mul_eq_mul_div, le_div_iff₀ hm]; exact mul_le_mul_of_nonneg_left hmy hu
    have h3 := mul_le_mul_of_nonneg_right hw hy.le
    linarith
  have hvb : (1 - w) * y ≤ R.val b := by have := (abs_le.1 hby).1; linarith
  have hvb0 : 0 < (1 - w) * y := mul_pos (by linarith) hy
  have hvbp : 0 < R.val b := by linarith
  have hb' : |x / y| ≤ Z := by
    rw [abs_div, abs_of_pos hy]
    exact (div_le_div₀ hX ha.bound hm hmy).trans hZ
  have he : |R.val a / R.val b - x / y| ≤ (r + w) / (1 - w) * |x / y| + t / (m * (1 - w)) := by
    rw [show R.val a / R.val b - x / y = ((R.val a - x) * y - x * (R.val b - y)) / (R.val b * y) by field_simp; ring, abs_div,
      abs_of_pos (mul_pos hvbp hy)]
    have hnum : |(R.val a - x) * y - x * (R.val b - y)| ≤ ((r + w) * |x| + t) * y := by
      refine (abs_sub _ _).trans ?_
      rw [abs_mul, abs_mul, abs_of_pos hy]
      have e1 := mul_le_mul_of_nonneg_right ha.err hy.le
      have e2 := mul_le_mul_of_nonneg_left hby (abs_nonneg x)
      linarith
    calc _ ≤ ((r + w) * |x| + t) * y / ((1 - w) * y * y) :=
          div_le_div₀ (by positivity) hnum (by positivity) (mul_le_mul_of_nonneg_right hvb hy.le)
      _ = (r + w) / (1 - w) * (|x| / y) + t / (y * (1 - w)) := by
          have : 1 - w ≠ 0 := by linarith
          field_simp
      _ ≤ _ := by
          rw [abs_div, abs_of_pos hy]
          have : t / (y * (1 - w)) ≤ t / (m * (1 - w)) :=
            div_le_div_of_nonneg_left ht (mul_pos hm (by linarith)) (mul_le_mul_of_nonneg_right hmy (by linarith))
          linarith
  have hq0 : 0 ≤ (r + w) / (1 - w) := div_nonneg (by linarith) (by linarith)
  have ht0 : 0 ≤ t / (m * (1 - w)) := div_nonneg ht (mul_nonneg hm.le (by linarith))
  have hb1 : |R.val a / R.val b| ≤ roundBig := by
    apply le_roundBig
    have h1 := abs_sub_abs_le_abs_sub (R.val a / R.val b) (x / y)
    have h2 := mul_le_mul_of_nonneg_left hb' hq0
    linarith
  obtain ⟨hf, hv⟩ := R.div a b ha.fin hb.fin hvbp.ne' hb1
  exact ⟨of_rnd hf hv he hb' hq0 ht0 hM hr' ht', hvbp⟩

theorem sqrt_err {v x r w : ℝ} (hv : 0 ≤ v) (hx : 0 ≤ x) (hr : 0 ≤ r) (hw : 0 ≤ w) (h : |v - x| ≤ r * x + w ^ 2) :
    |√v - √x| ≤ r * √x + w := by
  by_contra hc
  push Not at hc
  have e1 : |√v - √x| * (√v + √x) = |v - x| := by
    rw [← abs_of_nonneg (by positivity : 0 ≤ √v + √x), ← abs_mul]
    congr 1
    have e1 := Real.sq_sqrt hv
    have e2 := Real.sq_sqrt hx
    nlinarith
  have hs := Real.sqrt_nonneg x
  have hs' := Real.sqrt_nonneg v
  have e2 := Real.sq_sqrt hx
  have d1 : |√v - √x| ≤ √v + √x := by rw [abs_le]; constructor <;> linarith
  have d2 : √x ≤ √v + √x := by linarith
  have hrs : 0 ≤ r * √x := mul_nonneg hr hs
  generalize |√v - √x| = d at *
  generalize √v + √x = S at *
  have k1 : (r * √x) * √x ≤ (r * √x) * S := mul_le_mul_of_nonneg_left d2 hrs
  have hwS : w ≤ S := by linarith
  have k2 : w * w ≤ w * S := mul_le_mul_of_nonneg_left hwS hw
  rcases eq_or_lt_of_le (show 0 ≤ S by linarith) with hS | hS
  · rw [← hS] at d1; linarith
  · have k3 := mul_lt_mul_of_pos_right hc hS
    nlinarith

/-- The square root of a number whose computed value is not negative. -/
theorem sqrt {w : ℝ} (ha : NR R a x X r t) (hx : 0 ≤ x) (hva : 0 ≤ R.val a) (hr : 0 ≤ r) (hw : 0 ≤ w) (ht : t ≤ w ^ 2) (hZ0 : 0 ≤ Z)
    (hZ : X ≤ Z ^ 2) (hM : (1 + r) * Z + w ≤ 1e100) (hr' : r * (1 + 1e-15) + 1e-15 ≤ r') (ht' : w * (1 + 1e-15) + 1e-100 ≤ t') :
    NR R (PyNum.sqrt a) (√x) Z r' t' := by
  obtain ⟨hf, hv⟩ := R.sqrt a ha.fin hva
  have he := ha.err
  rw [abs_of_nonneg hx] at he
  have h1 := sqrt_err hva hx hr hw (he.trans (by linarith))
  have hb : |√x| ≤ Z := by
    rw [abs_of_nonneg (Real.sqrt_nonneg _)]
    exact Real.sqrt_le_iff.2 ⟨hZ0, (le_trans (le_abs_self x) ha.bound).trans hZ⟩
  rw [← abs_of_nonneg (Real.sqrt_nonneg x)] at h1
  rw [abs_of_nonneg (Real.sqrt_nonneg x)] at h1
  refine of_rnd hf hv (r := r) (t := w) ?_ hb hr hw hM hr' ht'
  rw [abs_of_nonneg (Real.sqrt_nonneg x)]
  exact h1

end NR

/-! ### Signs -/

section
variable {R : Rounding α} {a b : α}

theorem val_add_nonneg (ha : R.fin a) (hb : R.fin b) (h1 : 0 ≤ R.val a) (h2 : 0 ≤ R.val b) (hM : |R.val a + R.val b| ≤ 1e100) :
    0 ≤ R.val (a + b) := by
  rw [(R.add a b ha hb (le_roundBig hM)).2]
  exact rnd_nonneg R (by linarith)

theorem val_div_nonneg (ha : R.fin a) (hb : R.fin b) (h1 : 0 ≤ R.val a) (h2 : 0 < R.val b) (hM : |R.val a / R.val b| ≤ 1e100) :
    0 ≤ R.val (a / b) := by
  rw [(R.div a b ha hb h2.ne' (le_roundBig hM)).2]
  exact rnd_nonneg R (by positivity)

theorem val_sq_nonneg (ha : R.fin a) (h : |R.val a| ≤ 1e50) : 0 ≤ R.val (npow a 2) := by
  have hone := Near.lit_int R (m := 10) (s := true) (k := 1) 1 (by norm_num) (by norm_num)
  have hv1 : R.val ((1.0 : α)) = 1 := by rw [hone.2]; norm_num
  obtain ⟨hf, hv⟩ := R.mul (1.0 : α) a hone.1 ha (by rw [hv1, one_mul]; exact le_roundBig (h.trans (by norm_num)))
  rw [hv1, one_mul, R.val_rnd a ha] at hv
  have hb : |R.val ((1.0 : α) * a) * R.val a| ≤ roundBig := by
    rw [hv, abs_mul]
    apply le_roundBig
    calc |R.val a| * |R.val a| ≤ 1e50 * 1e50 := mul_le_mul h h (abs_nonneg _) (by norm_num)
      _ ≤ 1e100 := by norm_num
  have h2 := (R.mul ((1.0 : α) * a) a hf ha hb).2
  change 0 ≤ R.val ((1.0 : α) * a * a)
  rw [h2, hv]
  exact rnd_nonneg R (mul_self_nonneg _)

end

theorem NR.abs_val {R : Rounding α} {a : α} {x X r t : ℝ} (h : NR R a x X r t) (hr : 0 ≤ r) : |R.val a| ≤ (1 + r) * X + t := by
  have h1 := abs_sub_abs_le_abs_sub (R.val a) x
  have h2 := h.err
  have h3 := mul_le_mul_of_nonneg_left h.bound hr
  have h4 := h.bound
  linarith

/-- Both the number and what it approximates are not negative. -/
structure NP (R : Rounding α) (a : α) (x X r t : ℝ) : Prop extends NR R a x X r t where
  xnn : 0 ≤ x
  vnn : 0 ≤ R.val a

namespace NP
variable {R : Rounding α} {a b : α} {x y X Y Z r s t u r' t' : ℝ}

theorem mono (h : NP R a x X r t) (hr : r ≤ r') (ht : t ≤ t') : NP R a x X r' t' := ⟨h.toNR.mono hr ht, h.xnn, h.vnn⟩

theorem sq (ha : NR R a x X r t) (hr : 0 ≤ r) (ht : 0 ≤ t) (hX : (1 + r) * X + t ≤ 1e50) (hZ : X * X ≤ Z)
    (hM : (1 + (r + r + r * r)) * Z + (t * X * (1 + r) + t * X * (1 + r) + t * t) ≤ 1e100)
    (hr' : (r + r + r * r) * (1 + 1e-15) + 1e-15 ≤ r')
    (ht' : (t * X * (1 + r) + t * X * (1 + r) + t * t) * (1 + 1e-15) + 1e-100 ≤ t') : NP R (npow a 2) (x ^ 2) Z r' t' :=
  ⟨ha.sq hr ht (hX.trans (by norm_num)) hZ hM hr' ht', sq_nonneg x, val_sq_nonneg ha.fin ((ha.abs_val hr).trans hX)⟩

theorem add (ha : NP R a x X r t) (hb : NP R b y Y s u) (hs : s ≤ r) (hs0 : 0 ≤ s) (ht : 0 ≤ t) (hu : 0 ≤ u)
    (hZ : X + Y ≤ Z) (hM : (1 + r) * Z + (t + u) ≤ 1e100) (hr' : r * (1 + 1e-15) + 1e-15 ≤ r')
    (ht' : (t + u) * (1 + 1e-15) + 1e-100 ≤ t') : NP R (a + b) (x + y) Z r' t' := by
  have hr : 0 ≤ r := hs0.trans hs
  refine ⟨ha.toNR.add hb.toNR ha.xnn hb.xnn hs hr ht hu hZ hM hr' ht', add_nonneg ha.xnn hb.xnn,
    val_add_nonneg ha.fin hb.fin ha.vnn hb.vnn ?_⟩
  have h1 := ha.toNR.abs_val hr
  have h2 := hb.toNR.abs_val hs0
  have h3 := abs_add_le (R.val a) (R.val b)
  have h4 := mul_le_mul_of_nonneg_right hs hb.toNR.X_nonneg
  have h5 := mul_le_mul_of_nonneg_left hZ hr
  nlinarith

theorem div {m w : ℝ} (ha : NP R a x X r t) (hb : NR R b y Y s u) (hm : 0 < m) (hmy : m ≤ y) (hr : 0 ≤ r) (ht : 0 ≤ t)
    (hu : 0 ≤ u) (hw : s + u / m ≤ w) (hw1 : w ≤ 1 / 2) (hw0 : 0 ≤ w) (hZ : X / m ≤ Z)
    (hM : (1 + (r + w) / (1 - w)) * Z + t / (m * (1 - w)) ≤ 1e99)
    (hr' : (r + w) / (1 - w) * (1 + 1e-15) + 1e-15 ≤ r')
    (ht' : t / (m * (1 - w)) * (1 + 1e-15) + 1e-100 ≤ t') : a /! b = .ok (a / b) ∧ NP R (a / b) (x / y) Z r' t' := by
  obtain ⟨h1, h2⟩ := ha.toNR.div hb hm hmy hr ht hu hw hw1 hw0 hZ (hM.trans (by norm_num)) hr' ht'
  refine ⟨pyDiv_round hb.fin h2.ne', h1, div_nonneg ha.xnn (hm.le.trans hmy), val_div_nonneg ha.fin hb.fin ha.vnn h2 ?_⟩
  have hva := ha.toNR.abs_val hr
  have hvb : m * (1 - w) ≤ R.val b := by
    have hy : 0 < y := by linarith
    have e1 := (abs_le.1 hb.err).1
    rw [abs_of_pos hy] at e1
    have e2 : u ≤ u / m * y := by
      rw [div_mul_eq_mul_div, le_div_iff₀ hm]; exact mul_le_mul_of_nonneg_left hmy hu
    have e3 := mul_le_mul_of_nonneg_right hw hy.le
    have e4 := mul_le_mul_of_nonneg_right hmy (by linarith : 0 ≤ 1 - w)
    nlinarith
  have hmw : 0 < m * (1 - w) := mul_pos hm (by linarith)
  have hX := ha.toNR.X_nonneg
  rw [abs_div, abs_of_pos h2]
  have h1w : 0 < 1 - w := by linarith
  calc |R.val a| / R.val b ≤ ((1 + r) * X + t) / (m * (1 - w)) := div_le_div₀ (by positivity) hva hmw hvb
    _ = (1 + r) / (1 - w) * (X / m) + t / (m * (1 - w)) := by field_simp
    _ ≤ 1e99 := by
        refine le_trans ?_ hM
        have : (1 + r) / (1 - w) * (X / m) ≤ (1 + (r + w) / (1 - w)) * Z := by
          rw [show 1 + (r + w) / (1 - w) = (1 + r) / (1 - w) by field_simp; ring]
          exact mul_le_mul_of_nonneg_left hZ (by positivity)
        linarith
    _ ≤ 1e100 := by norm_num

theorem sqrt {w : ℝ} (ha : NP R a x X r t) (hr : 0 ≤ r) (hw : 0 ≤ w) (ht : t ≤ w ^ 2) (hZ0 : 0 ≤ Z)
    (hZ : X ≤ Z ^ 2) (hM : (1 + r) * Z + w ≤ 1e100) (hr' : r * (1 + 1e-15) + 1e-15 ≤ r') (ht' : w * (1 + 1e-15) + 1e-100 ≤ t') :
    mathSqrt a = .ok (PyNum.sqrt a) ∧ NR R (PyNum.sqrt a) (√x) Z r' t' :=
  ⟨mathSqrt_round ha.fin ha.vnn, ha.toNR.sqrt ha.xnn ha.vnn hr hw ht hZ0 hZ hM hr' ht'⟩

end NP

end Itm
