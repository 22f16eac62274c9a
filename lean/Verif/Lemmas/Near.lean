import Verif.Spec.Rounding
import Verif.Lemmas.Basic
import Mathlib.Analysis.SpecialFunctions.Log.Deriv
import Mathlib.Analysis.Complex.ExponentialBounds
import Mathlib.Tactic.Push

/-! Propagation of rounding errors. -/

namespace Itm
open Itm.Spec

theorem roundEps_le : roundEps ≤ 1e-15 := by unfold roundEps; norm_num
theorem roundEps_nonneg : 0 ≤ roundEps := by unfold roundEps; positivity
theorem roundTiny_le : roundTiny ≤ 1e-100 := by
  unfold roundTiny
  rw [inv_pow]
  have : (1e100 : ℝ) ≤ 2 ^ 1000 := by
    calc (1e100 : ℝ) ≤ (2 ^ 111) ^ 3 := by norm_num
      _ = 2 ^ 333 := by rw [← pow_mul]
      _ ≤ 2 ^ 1000 := pow_le_pow_right₀ (by norm_num) (by norm_num)
  refine (inv_anti₀ (by norm_num) this).trans ?_
  norm_num
theorem roundTiny_nonneg : 0 ≤ roundTiny := by unfold roundTiny; positivity
theorem le_roundBig {x : ℝ} (h : x ≤ 1e100) : x ≤ roundBig := by
  refine h.trans ?_
  unfold roundBig
  calc (1e100 : ℝ) ≤ (2 ^ 111) ^ 3 := by norm_num
    _ = 2 ^ 333 := by rw [← pow_mul]
    _ ≤ 2 ^ 1000 := pow_le_pow_right₀ (by norm_num) (by norm_num)

variable {α : Type} [PyNum α]

/-- `a` is a finite number within `e` of `x`. -/
structure Near (R : Rounding α) (a : α) (x e : ℝ) : Prop where
  fin : R.fin a
  err : |R.val a - x| ≤ e

namespace Near
variable {R : Rounding α} {a b : α} {x y e f g M : ℝ}

theorem nonneg (h : Near R a x e) : 0 ≤ e := (abs_nonneg _).trans h.err

theorem mono (h : Near R a x e) (he : e ≤ g) : Near R a x g := ⟨h.fin, h.err.trans he⟩

theorem self (h : R.fin a) : Near R a (R.val a) 0 := ⟨h, by simp⟩

theorem abs_val (h : Near R a x e) : |R.val a| ≤ |x| + e := by
  have h1 := abs_add_le (R.val a - x) x
  rw [sub_add_cancel] at h1
  have := h.err
  linarith

theorem le (h : Near R a x e) : R.val a ≤ x + e := by have := (abs_le.1 h.err).2; linarith
theorem ge (h : Near R a x e) : x - e ≤ R.val a := by have := (abs_le.1 h.err).1; linarith

/-- Rounding costs `1e-15` of the magnitude. -/
theorem rnd_err (R : Rounding α) {x : ℝ} (h : |x| ≤ M) (hM : M ≤ 1e100) : |R.rnd x - x| ≤ 1e-15 * M + 1e-100 := by
  refine (R.close x (le_roundBig (h.trans hM))).trans ?_
  have h1 : roundEps * |x| ≤ 1e-15 * M := mul_le_mul roundEps_le h (abs_nonneg x) (by norm_num)
  have := roundTiny_le
  linarith

theorem of_rnd (hfin : R.fin a) (hv : R.val a = R.rnd y) (h : |y - x| ≤ e) (hM : |y| ≤ M) (hM' : M ≤ 1e100)
    (hg : e + 1e-15 * M + 1e-100 ≤ g) : Near R a x g := by
  refine ⟨hfin, ?_⟩
  rw [hv]
  have h1 := rnd_err R hM hM'
  have h2 := abs_sub_le (R.rnd y) y x
  linarith

theorem lit (R : Rounding α) {m : ℕ} {s : Bool} {k : ℕ} (hM : |(OfScientific.ofScientific m s k : ℝ)| ≤ M) (hM' : M ≤ 1e100)
    (hg : 1e-15 * M + 1e-100 ≤ g) : Near R (OfScientific.ofScientific m s k : α) (OfScientific.ofScientific m s k : ℝ) g := by
  obtain ⟨h1, h2⟩ := R.lit m s k (le_roundBig (hM.trans hM'))
  exact of_rnd h1 h2 (e := 0) (by simp) hM hM' (by linarith)

/-- A literal that is a binary number of few digits. -/
theorem lit_exact (R : Rounding α) {m : ℕ} {s : Bool} {k : ℕ} (n j : ℤ) (h : (OfScientific.ofScientific m s k : ℝ) = n * 2 ^ j)
    (hn : |n| ≤ 2 ^ 53) (hj : -1000 ≤ j) (hj' : j ≤ 200) :
    R.fin (OfScientific.ofScientific m s k : α) ∧ R.val (OfScientific.ofScientific m s k : α) = (OfScientific.ofScientific m s k : ℝ) := by
  have hb : |(OfScientific.ofScientific m s k : ℝ)| ≤ roundBig := by
    apply le_roundBig
    rw [h, abs_mul, abs_of_pos (by positivity : (0 : ℝ) < 2 ^ j)]
    have h1 : |(n : ℝ)| ≤ 2 ^ 53 := by exact_mod_cast hn
    have h2 : (2 : ℝ) ^ j ≤ 2 ^ (200 : ℤ) := zpow_le_zpow_right₀ (by norm_num) hj'
    calc |(n : ℝ)| * 2 ^ j ≤ 2 ^ 53 * 2 ^ (200 : ℤ) := mul_le_mul h1 h2 (by positivity) (by positivity)
      _ ≤ 1e100 := by norm_num
  obtain ⟨h1, h2⟩ := R.lit m s k hb
  refine ⟨h1, ?_⟩
  rw [h2, h, R.exact n j hn hj (by omega)]

theorem lit_int (R : Rounding α) {m : ℕ} {s : Bool} {k : ℕ} (n : ℤ) (h : (OfScientific.ofScientific m s k : ℝ) = n) (hn : |n| ≤ 2 ^ 53) :
    R.fin (OfScientific.ofScientific m s k : α) ∧ R.val (OfScientific.ofScientific m s k : α) = (OfScientific.ofScientific m s k : ℝ) :=
  lit_exact R n 0 (by rw [h]; simp) hn (by norm_num) (by norm_num)

theorem of_eq (hf : R.fin a) (h : R.val a = x) : Near R a x 0 := ⟨hf, by rw [h]; simp⟩

theorem add (ha : Near R a x e) (hb : Near R b y f) (hM : |x + y| + e + f ≤ M) (hM' : M ≤ 1e100)
    (hg : e + f + 1e-15 * M + 1e-100 ≤ g) : Near R (a + b) (x + y) g := by
  have h1 : |R.val a + R.val b - (x + y)| ≤ e + f := by
    rw [show R.val a + R.val b - (x + y) = (R.val a - x) + (R.val b - y) by ring]
    exact (abs_add_le _ _).trans (add_le_add ha.err hb.err)
  have h2 : |R.val a + R.val b| ≤ M := by
    have := abs_sub_abs_le_abs_sub (R.val a + R.val b) (x + y)
    linarith
  obtain ⟨hf, hv⟩ := R.add a b ha.fin hb.fin (le_roundBig (h2.trans hM'))
  exact of_rnd hf hv h1 h2 hM' hg

theorem sub (ha : Near R a x e) (hb : Near R b y f) (hM : |x - y| + e + f ≤ M) (hM' : M ≤ 1e100)
    (hg : e + f + 1e-15 * M + 1e-100 ≤ g) : Near R (a - b) (x - y) g := by
  have h1 : |R.val a - R.val b - (x - y)| ≤ e + f := by
    rw [show R.val a - R.val b - (x - y) = (R.val a - x) - (R.val b - y) by ring]
    exact (abs_sub _ _).trans (add_le_add ha.err hb.err)
  have h2 : |R.val a - R.val b| ≤ M := by
    have := abs_sub_abs_le_abs_sub (R.val a - R.val b) (x - y)
    linarith
  obtain ⟨hf, hv⟩ := R.sub a b ha.fin hb.fin (le_roundBig (h2.trans hM'))
  exact of_rnd hf hv h1 h2 hM' hg

theorem mul {X Y : ℝ} (ha : Near R a x e) (hb : Near R b y f) (hX : |x| ≤ X) (hY : |y| ≤ Y)
    (hM : (X + e) * (Y + f) ≤ M) (hM' : M ≤ 1e100)
    (hg : X * f + Y * e + e * f + 1e-15 * M + 1e-100 ≤ g) : Near R (a * b) (x * y) g := by
  have he := ha.nonneg
  have hf := hb.nonneg
  have h1 : |R.val a * R.val b - x * y| ≤ X * f + Y * e + e * f := by
    rw [show R.val a * R.val b - x * y = x * (R.val b - y) + y * (R.val a - x) + (R.val a - x) * (R.val b - y) by ring]
    refine (abs_add_le _ _).trans (add_le_add ((abs_add_le _ _).trans (add_le_add ?_ ?_)) ?_) <;> rw [abs_mul]
    · exact mul_le_mul hX hb.err (abs_nonneg _) ((abs_nonneg _).trans hX)
    · exact mul_le_mul hY ha.err (abs_nonneg _) ((abs_nonneg _).trans hY)
    · exact mul_le_mul ha.err hb.err (abs_nonneg _) he
  have h2 : |R.val a * R.val b| ≤ M := by
    rw [abs_mul]
    refine le_trans (mul_le_mul (ha.abs_val.trans ?_) (hb.abs_val.trans ?_) (abs_nonneg _) ?_) hM
    · linarith
    · linarith
    · have := (abs_nonneg x).trans hX; linarith
  obtain ⟨hf, hv⟩ := R.mul a b ha.fin hb.fin (le_roundBig (h2.trans hM'))
  exact of_rnd hf hv h1 h2 hM' hg

/-- Division by a number known to be away from zero. -/
theorem div {Q m : ℝ} (ha : Near R a x e) (hb : Near R b y f) (hQ : |x / y| ≤ Q) (hm : m ≤ |y|) (hmf : f < m)
    (hM : Q + (e + Q * f) / (m - f) ≤ M) (hM' : M ≤ 1e100)
    (hg : (e + Q * f) / (m - f) + 1e-15 * M + 1e-100 ≤ g) : Near R (a / b) (x / y) g ∧ R.val b ≠ 0 := by
  have he := ha.nonneg
  have hf := hb.nonneg
  have hy : y ≠ 0 := fun h => by rw [h, abs_zero] at hm; linarith
  have hvb : m - f ≤ |R.val b| := by
    have h1 := abs_sub_abs_le_abs_sub y (R.val b)
    rw [abs_sub_comm] at h1
    have := hb.err
    linarith
  have hb0 : R.val b ≠ 0 := fun h => by rw [h, abs_zero] at hvb; linarith
  have h1 : |R.val a / R.val b - x / y| ≤ (e + Q * f) / (m - f) := by
    rw [show R.val a / R.val b - x / y = ((R.val a - x) - x / y * (R.val b - y)) / R.val b by field_simp; ring, abs_div]
    have hnum : |(R.val a - x) - x / y * (R.val b - y)| ≤ e + Q * f := by
      refine (abs_sub _ _).trans (add_le_add ha.err ?_)
      rw [abs_mul]
      exact mul_le_mul hQ hb.err (abs_nonneg _) ((abs_nonneg _).trans hQ)
    exact div_le_div₀ ((abs_nonneg _).trans hnum) hnum (by linarith) hvb
  have h2 : |R.val a / R.val b| ≤ M := by
    have := abs_sub_abs_le_abs_sub (R.val a / R.val b) (x / y)
    linarith
  obtain ⟨hf, hv⟩ := R.div a b ha.fin hb.fin hb0 (le_roundBig (h2.trans hM'))
  exact ⟨of_rnd hf hv h1 h2 hM' hg, hb0⟩

theorem neg (ha : Near R a x e) : Near R (-a) (-x) e := by
  obtain ⟨h1, h2⟩ := R.neg a ha.fin
  refine ⟨h1, ?_⟩
  rw [h2, show -R.val a - -x = -(R.val a - x) by ring, abs_neg]
  exact ha.err

theorem abs (ha : Near R a x e) : Near R (PyNum.abs a) |x| e := by
  obtain ⟨h1, h2⟩ := R.abs a ha.fin
  refine ⟨h1, ?_⟩
  rw [h2]
  exact (abs_abs_sub_abs_le _ _).trans ha.err

/-- The exponential of a number that may be off by up to one half. -/
theorem exp (ha : Near R a x e) (hM : Real.exp x ≤ M) (he : e ≤ 1 / 2) (hM' : M ≤ 1e50)
    (hg : 2 * e * M + 2e-15 * M + 1e-100 ≤ g) : Near R (PyNum.exp a) (Real.exp x) g := by
  have he0 := ha.nonneg
  have hd : |Real.exp (R.val a) - Real.exp x| ≤ 2 * e * Real.exp x := by
    have e1 : Real.exp (R.val a) - Real.exp x = Real.exp x * (Real.exp (R.val a - x) - 1) := by
      rw [mul_sub, ← Real.exp_add, mul_one]; congr 2; ring
    have h2 : |Real.exp (R.val a - x) - 1| ≤ 2 * |R.val a - x| :=
      Real.abs_exp_sub_one_le (by have := ha.err; linarith)
    rw [e1, abs_mul, abs_of_pos (Real.exp_pos x)]
    have := ha.err
    have hp := Real.exp_pos x
    nlinarith
  have hp := Real.exp_pos x
  have hv : Real.exp (R.val a) ≤ 2 * M := by
    have := (abs_le.1 hd).2
    nlinarith
  obtain ⟨h1, h2⟩ := R.exp a ha.fin (le_roundBig (by norm_num at *; linarith))
  refine ⟨h1, ?_⟩
  have h3 := abs_sub_le (R.val (PyNum.exp a)) (Real.exp (R.val a)) (Real.exp x)
  have h4 : roundEps * Real.exp (R.val a) ≤ 1e-15 * (2 * M) :=
    mul_le_mul roundEps_le hv (Real.exp_pos _).le (by norm_num)
  have h5 := roundTiny_le
  have h6 : 2 * e * Real.exp x ≤ 2 * e * M := mul_le_mul_of_nonneg_left hM (by linarith)
  linarith

/-- The logarithm of a number at least `m`. -/
theorem log {m : ℝ} (ha : Near R a x e) (hm : m ≤ x) (hme : e < m) (hM : |Real.log x| + e / (m - e) ≤ M)
    (hg : e / (m - e) + 1e-15 * M + 1e-100 ≤ g) : Near R (PyNum.log a) (Real.log x) g ∧ 0 < R.val a := by
  have he := ha.nonneg
  have hxp : 0 < x := by linarith
  have hva : m - e ≤ R.val a := by have := ha.ge; linarith
  have hvp : 0 < R.val a := by linarith
  have hd : |Real.log (R.val a) - Real.log x| ≤ e / (m - e) := by
    rw [abs_le]
    have herr := abs_le.1 ha.err
    have hme' : 0 < m - e := by linarith
    constructor
    · have h1 := Real.log_le_sub_one_of_pos (div_pos hxp hvp)
      rw [Real.log_div hxp.ne' hvp.ne'] at h1
      have h2 : x / R.val a - 1 ≤ e / (m - e) := by
        rw [show x / R.val a - 1 = (x - R.val a) / R.val a by field_simp]
        exact div_le_div₀ he (by linarith [herr.1]) hme' hva
      linarith
    · have h1 := Real.log_le_sub_one_of_pos (div_pos hvp hxp)
      rw [Real.log_div hvp.ne' hxp.ne'] at h1
      have h2 : R.val a / x - 1 ≤ e / (m - e) := by
        rw [show R.val a / x - 1 = (R.val a - x) / x by field_simp]
        exact div_le_div₀ he (by linarith [herr.2]) hme' (by linarith)
      linarith
  obtain ⟨h1, h2⟩ := R.log a ha.fin hvp
  refine ⟨⟨h1, ?_⟩, hvp⟩
  have h3 := abs_sub_le (R.val (PyNum.log a)) (Real.log (R.val a)) (Real.log x)
  have h4 : |Real.log (R.val a)| ≤ M := by
    have := abs_sub_abs_le_abs_sub (Real.log (R.val a)) (Real.log x)
    linarith
  have h5 : roundEps * |Real.log (R.val a)| ≤ 1e-15 * M := mul_le_mul roundEps_le h4 (abs_nonneg _) (by norm_num)
  have h6 := roundTiny_le
  linarith

/-- The square root of a number at least `m ^ 2`. -/
theorem sqrt {m : ℝ} (ha : Near R a x e) (hm0 : 0 < m) (hm : m ^ 2 ≤ x) (hme : e ≤ m ^ 2) (hM : √x + e / m ≤ M) (hM' : M ≤ 1e100)
    (hg : e / m + 1e-15 * M + 1e-100 ≤ g) : Near R (PyNum.sqrt a) (√x) g ∧ 0 ≤ R.val a := by
  have he := ha.nonneg
  have hv : 0 ≤ R.val a := by have := ha.ge; linarith
  have hx : 0 ≤ x := le_trans (by positivity) hm
  have hs : m ≤ √x := Real.le_sqrt_of_sq_le hm
  have hd : |√(R.val a) - √x| ≤ e / m := by
    rw [le_div_iff₀ hm0]
    have h1 : |√(R.val a) - √x| * (√(R.val a) + √x) = |R.val a - x| := by
      rw [← abs_of_nonneg (by positivity : 0 ≤ √(R.val a) + √x), ← abs_mul]
      congr 1
      have e1 := Real.sq_sqrt hv
      have e2 := Real.sq_sqrt hx
      nlinarith
    have h2 : m ≤ √(R.val a) + √x := by have := Real.sqrt_nonneg (R.val a); linarith
    have h3 := mul_le_mul_of_nonneg_left h2 (abs_nonneg (√(R.val a) - √x))
    have := ha.err
    linarith
  obtain ⟨h1, h2⟩ := R.sqrt a ha.fin hv
  have h3 : |√(R.val a)| ≤ M := by
    rw [abs_of_nonneg (Real.sqrt_nonneg _)]
    have := (abs_le.1 hd).2
    linarith
  exact ⟨of_rnd h1 h2 hd h3 hM' hg, hv⟩

/-- Multiplication by `1.0` is exact, so a square costs one rounding. -/
theorem sq {X : ℝ} (ha : Near R a x e) (hX : |x| ≤ X) (hM : (X + e) * (X + e) ≤ M) (hM' : M ≤ 1e100) (hX' : X + e ≤ 1e100)
    (hg : X * e + X * e + e * e + 1e-15 * M + 1e-100 ≤ g) : Near R (npow a 2) (x ^ 2) g := by
  have hone := lit_int R (m := 10) (s := true) (k := 1) 1 (by norm_num) (by norm_num)
  have h1 : Near R (npow a 1) x e := by
    have hv1 : R.val ((1.0 : α)) = 1 := by rw [hone.2]; norm_num
    have hb : |R.val (1.0 : α) * R.val a| ≤ roundBig := by
      rw [hv1, one_mul]; exact le_roundBig (ha.abs_val.trans (by linarith))
    obtain ⟨hf, hv⟩ := R.mul (1.0 : α) a hone.1 ha.fin hb
    have e1 : R.val (npow a 1) = R.val a := by
      show R.val ((1.0 : α) * a) = R.val a
      rw [hv, hv1, one_mul, R.val_rnd a ha.fin]
    exact ⟨hf, by rw [e1]; exact ha.err⟩
  have h2 := mul h1 ha hX hX hM hM' hg
  rw [pow_two]
  exact h2

end Near

/-- `a` is a finite number within `e` of `x`, and `x` is at most `X` in size. -/
structure NB (R : Rounding α) (a : α) (x X e : ℝ) : Prop extends Near R a x e where
  bound : |x| ≤ X

namespace NB
variable {R : Rounding α} {a b : α} {x y X Y Z e f g : ℝ}

theorem tight (h : NB R a x X e) (hx : |x| ≤ Y) : NB R a x Y e := ⟨h.toNear, hx⟩

theorem mono (h : NB R a x X e) (he : e ≤ g) : NB R a x X g := ⟨h.toNear.mono he, h.bound⟩

theorem self (h : R.fin a) (hb : |R.val a| ≤ X) : NB R a (R.val a) X 0 := ⟨Near.self h, hb⟩

theorem lit (R : Rounding α) {m : ℕ} {s : Bool} {k : ℕ} (hX : |(OfScientific.ofScientific m s k : ℝ)| ≤ X) (hX' : X ≤ 1e50)
    (hg : 1e-15 * X + 1e-100 ≤ g) : NB R (OfScientific.ofScientific m s k : α) (OfScientific.ofScientific m s k : ℝ) X g :=
  ⟨Near.lit R hX (hX'.trans (by norm_num)) hg, hX⟩

theorem add (ha : NB R a x X e) (hb : NB R b y Y f) (hZ : X + Y ≤ Z) (hZ' : Z + e + f ≤ 1e100)
    (hg : e + f + 1e-15 * (Z + e + f) + 1e-100 ≤ g) : NB R (a + b) (x + y) Z g := by
  have h := (abs_add_le x y).trans ((add_le_add ha.bound hb.bound).trans hZ)
  exact ⟨ha.toNear.add hb.toNear (M := Z + e + f) (by linarith) hZ' hg, h⟩

theorem sub (ha : NB R a x X e) (hb : NB R b y Y f) (hZ : X + Y ≤ Z) (hZ' : Z + e + f ≤ 1e100)
    (hg : e + f + 1e-15 * (Z + e + f) + 1e-100 ≤ g) : NB R (a - b) (x - y) Z g := by
  have h := (abs_sub x y).trans ((add_le_add ha.bound hb.bound).trans hZ)
  exact ⟨ha.toNear.sub hb.toNear (M := Z + e + f) (by linarith) hZ' hg, h⟩

theorem mul (ha : NB R a x X e) (hb : NB R b y Y f) (hZ : X * Y ≤ Z) (hZ' : (X + e) * (Y + f) ≤ 1e100)
    (hg : X * f + Y * e + e * f + 1e-15 * ((X + e) * (Y + f)) + 1e-100 ≤ g) : NB R (a * b) (x * y) Z g := by
  refine ⟨ha.toNear.mul hb.toNear ha.bound hb.bound le_rfl hZ' hg, ?_⟩
  rw [abs_mul]
  exact (mul_le_mul ha.bound hb.bound (abs_nonneg _) ((abs_nonneg _).trans ha.bound)).trans hZ

theorem neg (ha : NB R a x X e) : NB R (-a) (-x) X e := ⟨ha.toNear.neg, by rw [abs_neg]; exact ha.bound⟩

theorem sq (ha : NB R a x X e) (hZ : X * X ≤ Z) (hX : X + e ≤ 1e50)
    (hg : X * e + X * e + e * e + 1e-15 * ((X + e) * (X + e)) + 1e-100 ≤ g) : NB R (npow a 2) (x ^ 2) Z g := by
  have h0 := (abs_nonneg _).trans ha.bound
  have h1 := ha.nonneg
  refine ⟨ha.toNear.sq ha.bound le_rfl ?_ (hX.trans (by norm_num)) hg, ?_⟩
  · calc (X + e) * (X + e) ≤ 1e50 * 1e50 := mul_le_mul hX hX (by linarith) (by norm_num)
      _ ≤ 1e100 := by norm_num
  · rw [abs_pow, pow_two]
    exact (mul_le_mul ha.bound ha.bound (abs_nonneg _) h0).trans hZ

end NB

/-! ### Primitives -/

section
variable {R : Rounding α}

theorem rnd_zero (R : Rounding α) : R.rnd 0 = 0 := by
  have := R.odd 0
  rw [neg_zero] at this
  linarith

theorem rnd_nonneg (R : Rounding α) {x : ℝ} (h : 0 ≤ x) : 0 ≤ R.rnd x := by
  rw [← rnd_zero R]; exact R.mono h

theorem fin_zero (R : Rounding α) : R.fin (0.0 : α) ∧ R.val (0.0 : α) = 0 := by
  have h := Near.lit_int R (m := 0) (s := true) (k := 1) 0 (by norm_num) (by norm_num)
  refine ⟨h.1, h.2.trans (by norm_num)⟩

theorem pyEq_round {a b : α} (ha : R.fin a) (hb : R.fin b) : pyEq a b ↔ R.val a = R.val b := by
  unfold pyEq
  rw [R.le a b ha hb, R.le b a hb ha]
  exact ⟨fun h => le_antisymm h.1 h.2, fun h => ⟨h.le, h.ge⟩⟩

theorem pyDiv_round {a b : α} (hb : R.fin b) (h : R.val b ≠ 0) : a /! b = .ok (a / b) := by
  unfold pyDiv
  obtain ⟨h1, h2⟩ := fin_zero R
  rw [if_neg (by rw [pyEq_round hb h1, h2]; exact h)]

theorem mathSqrt_round {a : α} (ha : R.fin a) (h : 0 ≤ R.val a) : mathSqrt a = .ok (PyNum.sqrt a) := by
  unfold mathSqrt
  obtain ⟨h1, h2⟩ := fin_zero R
  rw [if_neg (by rw [R.lt a _ ha h1, h2]; exact not_lt.2 h)]

theorem npLog_round {a : α} (ha : R.fin a) (h : 0 < R.val a) : npLog a = .ok (PyNum.log a) := by
  unfold npLog
  obtain ⟨h1, h2⟩ := fin_zero R
  rw [if_pos (by rw [R.lt _ a h1 ha, h2]; exact h)]

theorem pyMax_round {a b : α} {x y e f : ℝ} (ha : Near R a x e) (hb : Near R b y f) : Near R (pyMax a b) (max x y) (max e f) := by
  unfold pyMax
  have h1 := abs_le.1 ha.err
  have h2 := abs_le.1 hb.err
  have m1 := le_max_left e f
  have m2 := le_max_right e f
  split_ifs with h
  · rw [R.lt a b ha.fin hb.fin] at h
    refine ⟨hb.fin, abs_le.2 ⟨?_, ?_⟩⟩
    · have : max x y ≤ R.val b + max e f := max_le (by linarith [h1.1]) (by linarith [h2.1])
      linarith
    · have := le_max_right x y; linarith [h2.2]
  · rw [R.lt a b ha.fin hb.fin] at h
    push Not at h
    refine ⟨ha.fin, abs_le.2 ⟨?_, ?_⟩⟩
    · have : max x y ≤ R.val a + max e f := max_le (by linarith [h1.1]) (by linarith [h2.1])
      linarith
    · have := le_max_left x y; linarith [h1.2]

end

end Itm
