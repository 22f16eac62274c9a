import Verif.Lemmas.AvarRound
import Verif.Lemmas.AvarGood

/-! The coefficients of the variability formula in rounding arithmetic. -/

namespace Itm.Props
open Itm Spec
variable {α : Type} [PyNum α] {R : Rounding α}

/-! ### `curv` -/

theorem one_add_sq_pos (w : ℝ) : (0 : ℝ) < 1 + w ^ 2 := by positivity

/-- `w²/(1+w²)` moves by at most the change of `w`. -/
theorem frac_lip (v w : ℝ) : |v ^ 2 / (1 + v ^ 2) - w ^ 2 / (1 + w ^ 2)| ≤ |v - w| := by
  have hv := one_add_sq_pos v
  have hw := one_add_sq_pos w
  rw [show v ^ 2 / (1 + v ^ 2) - w ^ 2 / (1 + w ^ 2) = (v - w) * ((v + w) / ((1 + v ^ 2) * (1 + w ^ 2))) by field_simp; ring, abs_mul]
  refine mul_le_of_le_one_right (abs_nonneg _) ?_
  rw [abs_div, abs_of_pos (mul_pos hv hw), div_le_one (mul_pos hv hw), abs_le]
  constructor <;> nlinarith [sq_nonneg (v + w), sq_nonneg (v - w), mul_nonneg (sq_nonneg v) (sq_nonneg w), sq_nonneg (v + 1), sq_nonneg (v - 1), sq_nonneg (w + 1), sq_nonneg (w - 1)]

/-- `1/(1+u²)` moves by at most the change of `u`. -/
theorem inv_lip (v w : ℝ) : |1 / (1 + v ^ 2) - 1 / (1 + w ^ 2)| ≤ |v - w| := by
  have hv := one_add_sq_pos v
  have hw := one_add_sq_pos w
  have h := frac_lip v w
  rw [show 1 / (1 + v ^ 2) - 1 / (1 + w ^ 2) = -(v ^ 2 / (1 + v ^ 2) - w ^ 2 / (1 + w ^ 2)) by field_simp; ring, abs_neg]
  exact h

/-- `1.0 + u²` on the value of `u`. -/
theorem one_add_sq_round {u : α} (hu : R.fin u) (hb : |R.val u| ≤ 1000) :
    NP R (npow u 2) (R.val u ^ 2) 1e6 2e-15 1e-90 ∧ NP R (1.0 + npow u 2) (1 + R.val u ^ 2) 1000001 4e-15 2e-90 := by
  have h1 : NP R (npow u 2) (R.val u ^ 2) 1e6 2e-15 1e-90 :=
    NP.sq (NR.self hu hb) (by norm_num) (by norm_num) (by norm_num) (by norm_num) (by norm_num) (by norm_num) (by norm_num)
  have hone := Near.lit_int R (m := 10) (s := true) (k := 1) 1 (by norm_num) (by norm_num)
  have h0 : NP R (1.0 : α) 1 1 2e-15 0 := by
    have e : R.val (1.0 : α) = 1 := by rw [hone.2]; norm_num
    exact ⟨(NR.of_eq hone.1 e (by norm_num)).mono (by norm_num) (by norm_num), by norm_num, by rw [e]; norm_num⟩
  exact ⟨h1, h0.add h1 (by norm_num) (by norm_num) (by norm_num) (by norm_num) (by norm_num) (by norm_num) (by norm_num) (by norm_num)⟩

/-- Constants of `curv` in both arithmetics. -/
structure CurvConst (R : Rounding α) (c1 c2 x1 x2 x3 : α) (c1' c2' x1' x2' x3' : ℝ) : Prop where
  c1 : NB R c1 c1' 11 2e-14
  c2 : NB R c2 c2' 858 1e-12
  c2n : 0 ≤ c2'
  x1 : Near R x1 x1' (1.1e-15 * x1')
  x1l : 8e4 ≤ x1'
  x2 : NB R x2 x2' 3.2e5 4e-10
  x3 : NB R x3 x3' 2e5 3e-10
  x3l : 9e4 ≤ x3'

theorem curv_round {c1 c2 x1 x2 x3 de : α} {c1' c2' x1' x2' x3' d e : ℝ} (hc : CurvConst R c1 c2 x1 x2 x3 c1' c2' x1' x2' x3')
    (hd : NB R de d 1.1e7 e) (he : e ≤ 1e-6) :
    Near R (curv c1 c2 x1 x2 x3 de) (curv c1' c2' x1' x2' x3' d) (0.025 * e + 2e-9) := by
  have he0 := hd.nonneg
  have hx1 := hc.x1l
  have hx3 := hc.x3l
  have hc2 := hc.c2n
  -- the two quotients
  have hs : NB R (de - x2) (d - x2') 1.2e7 (e + 1.5e-8) :=
    hd.sub hc.x2 (by norm_num) (by norm_num at *; linarith) (by norm_num at *; linarith)
  have hu : Near R ((de - x2) / x3) ((d - x2') / x3') (1.2e-5 * e + 1e-12) := by
    refine (hs.toNear.div hc.x3.toNear (Q := 140) (m := 9e4) (M := 141) ?_ ?_ (by norm_num) ?_ (by norm_num) ?_).1
    · rw [abs_div, abs_of_pos (by linarith : 0 < x3'), div_le_iff₀ (by linarith)]
      have := hs.bound
      norm_num at *
      linarith
    · rw [abs_of_pos (by linarith)]; exact hx3
    · have : (e + 1.5e-8 + 140 * 3e-10) / (9e4 - 3e-10) ≤ 1 := by rw [div_le_one (by norm_num)]; norm_num at *; linarith
      norm_num at *
      linarith
    · have : (e + 1.5e-8 + 140 * 3e-10) / (9e4 - 3e-10) ≤ 1.2e-5 * e + 8e-13 := by
        rw [div_le_iff₀ (by norm_num)]; norm_num at *; linarith
      norm_num at *
      linarith
  have hub : |(d - x2') / x3'| ≤ 140 := by
    rw [abs_div, abs_of_pos (by linarith : 0 < x3'), div_le_iff₀ (by linarith)]
    have := hs.bound
    norm_num at *
    linarith
  have hwb : |d / x1'| ≤ 140 := by
    rw [abs_div, abs_of_pos (by linarith : 0 < x1'), div_le_iff₀ (by linarith)]
    have := hd.bound
    norm_num at *
    linarith
  have hw : Near R (de / x1) (d / x1') (1.3e-5 * e + 3.2e-13) := by
    have hdb := hd.bound
    have hq : |d / x1'| * (1.1e-15 * x1') ≤ 1.3e-8 := by
      rw [abs_div, abs_of_pos (by linarith : 0 < x1'), show |d| / x1' * (1.1e-15 * x1') = 1.1e-15 * |d| by field_simp]
      generalize |d| = D at *
      norm_num at *
      linarith
    have hden : 7.99e4 ≤ x1' - 1.1e-15 * x1' := by norm_num at *; linarith
    refine (hd.toNear.div hc.x1 (Q := |d / x1'|) (m := x1') (M := 141) le_rfl ?_ (by norm_num at *; linarith) ?_ (by norm_num) ?_).1
    · rw [abs_of_pos (by linarith)]
    · have : (e + |d / x1'| * (1.1e-15 * x1')) / (x1' - 1.1e-15 * x1') ≤ 1 := by
        rw [div_le_one (by linarith)]
        generalize |d / x1'| * (1.1e-15 * x1') = Q at *
        norm_num at *; linarith
      linarith
    · have : (e + |d / x1'| * (1.1e-15 * x1')) / (x1' - 1.1e-15 * x1') ≤ 1.3e-5 * e + 1.7e-13 := by
        refine (div_le_div₀ (by linarith) (add_le_add_right hq e) (by norm_num) hden).trans ?_
        rw [div_le_iff₀ (by norm_num)]; norm_num at *; linarith
      norm_num at *
      linarith
  generalize hU : (d - x2') / x3' = U at *
  generalize hW : d / x1' = W at *
  have e0 : curv c1' c2' x1' x2' x3' d = (c1' + c2' / (1 + U ^ 2)) * W ^ 2 / (1 + W ^ 2) := by
    unfold curv
    simp only [npow_real]
    rw [hU, hW]
    norm_num
  rw [e0]
  have e1 : curv c1 c2 x1 x2 x3 de = (c1 + c2 / (1.0 + npow ((de - x2) / x3) 2)) * npow (de / x1) 2 / (1.0 + npow (de / x1) 2) := rfl
  rw [e1]
  clear hU hW e0 e1
  generalize (de - x2) / x3 = u at *
  generalize de / x1 = w at *
  have hub' : |R.val u| ≤ 1000 := hu.abs_val.trans (by norm_num at *; linarith)
  have hwb' : |R.val w| ≤ 1000 := hw.abs_val.trans (by norm_num at *; linarith)
  obtain ⟨-, hu2⟩ := one_add_sq_round hu.fin hub'
  obtain ⟨hw1, hw2⟩ := one_add_sq_round hw.fin hwb'
  have c2v : |R.val c2| ≤ 859 := hc.c2.abs_val.trans (by have := hc.c2.bound; norm_num at *; linarith)
  -- c2 / (1 + u²)
  have hq : Near R (c2 / (1.0 + npow u 2)) (c2' / (1 + U ^ 2)) (0.0104 * e + 9e-10) := by
    obtain ⟨h1, -⟩ := (NR.self hc.c2.fin c2v).div hu2.toNR (m := 1) (w := 5e-15) (Z := 859) (r' := 8e-15) (t' := 1e-99) (by norm_num)
      (by have := sq_nonneg (R.val u); linarith) (by norm_num) (by norm_num) (by norm_num) (by norm_num) (by norm_num) (by norm_num)
      (by norm_num) (by norm_num) (by norm_num) (by norm_num)
    refine ⟨h1.fin, ?_⟩
    have h2 := h1.toNB (by norm_num) (g := 8e-12) (by norm_num)
    have h3 : |R.val c2 / (1 + R.val u ^ 2) - c2' / (1 + U ^ 2)| ≤ 1e-12 + 858 * (1.2e-5 * e + 1e-12) := by
      rw [show R.val c2 / (1 + R.val u ^ 2) - c2' / (1 + U ^ 2) =
        (R.val c2 - c2') * (1 / (1 + R.val u ^ 2)) + c2' * (1 / (1 + R.val u ^ 2) - 1 / (1 + U ^ 2)) by ring]
      refine (abs_add_le _ _).trans (add_le_add ?_ ?_)
      · rw [abs_mul]
        have : |1 / (1 + R.val u ^ 2)| ≤ 1 := by
          rw [abs_of_nonneg (by positivity), div_le_one (by positivity)]
          nlinarith [sq_nonneg (R.val u)]
        calc _ ≤ (1e-12 : ℝ) * 1 := mul_le_mul hc.c2.err this (abs_nonneg _) (by norm_num)
          _ = 1e-12 := by norm_num
      · rw [abs_mul]
        exact mul_le_mul hc.c2.bound ((inv_lip _ _).trans hu.err) (abs_nonneg _) (by norm_num)
    have h4 := abs_sub_le (R.val (c2 / (1.0 + npow u 2))) (R.val c2 / (1 + R.val u ^ 2)) (c2' / (1 + U ^ 2))
    have h5 := h2.err
    norm_num at *
    linarith
  have hqb : |c2' / (1 + U ^ 2)| ≤ 858 := by
    have := hc.c2.bound
    rw [abs_of_nonneg hc2] at this
    rw [abs_of_nonneg (by positivity)]
    exact (div_le_self hc2 (by nlinarith [sq_nonneg U])).trans this
  have hA : NB R (c1 + c2 / (1.0 + npow u 2)) (c1' + c2' / (1 + U ^ 2)) 869 (0.0105 * e + 9.1e-10) :=
    hc.c1.add (⟨hq, hqb⟩ : NB R _ _ 858 _) (by norm_num) (by norm_num at *; linarith) (by norm_num at *; linarith)
  generalize c1' + c2' / (1 + U ^ 2) = A' at *
  generalize c1 + c2 / (1.0 + npow u 2) = A at *
  have hAv : |R.val A| ≤ 870 := hA.abs_val.trans (by have := hA.bound; norm_num at *; linarith)
  have hm : NR R (A * npow w 2) (R.val A * R.val w ^ 2) 8.7e8 4e-15 1e-80 :=
    (NR.self hA.fin hAv).mul hw1.toNR (by norm_num) (by norm_num) (by norm_num) (by norm_num) (by norm_num) (by norm_num) (by norm_num)
      (by norm_num)
  obtain ⟨h1, -⟩ := hm.div hw2.toNR (m := 1) (w := 5e-15) (Z := 8.7e8) (r' := 1.1e-14) (t' := 2e-80) (by norm_num)
    (by have := sq_nonneg (R.val w); linarith) (by norm_num) (by norm_num) (by norm_num) (by norm_num) (by norm_num) (by norm_num)
    (by norm_num) (by norm_num) (by norm_num) (by norm_num)
  have hfr : ∀ z : ℝ, |z ^ 2 / (1 + z ^ 2)| ≤ 1 := by
    intro z
    rw [abs_of_nonneg (by positivity), div_le_one (by positivity)]
    linarith
  have h2 := (h1.tight (Y := 870) (by
    rw [mul_div_assoc, abs_mul]
    calc _ ≤ (870 : ℝ) * 1 := mul_le_mul hAv (hfr _) (abs_nonneg _) (by norm_num)
      _ = 870 := by norm_num)).toNB (by norm_num) (g := 1e-11) (by norm_num)
  refine ⟨h1.fin, ?_⟩
  have h3 : |R.val A * R.val w ^ 2 / (1 + R.val w ^ 2) - A' * W ^ 2 / (1 + W ^ 2)| ≤
      (0.0105 * e + 9.1e-10) + 869 * (1.3e-5 * e + 3.2e-13) := by
    rw [show R.val A * R.val w ^ 2 / (1 + R.val w ^ 2) - A' * W ^ 2 / (1 + W ^ 2) =
      (R.val A - A') * (R.val w ^ 2 / (1 + R.val w ^ 2)) + A' * (R.val w ^ 2 / (1 + R.val w ^ 2) - W ^ 2 / (1 + W ^ 2)) by ring]
    refine (abs_add_le _ _).trans (add_le_add ?_ ?_)
    · rw [abs_mul]
      refine (mul_le_mul hA.err (hfr _) (abs_nonneg _) hA.nonneg).trans ?_
      rw [mul_one]
    · rw [abs_mul]
      exact mul_le_mul hA.bound ((frac_lip _ _).trans hw.err) (abs_nonneg _) (by norm_num)
  have h4 := abs_sub_le (R.val (A * npow w 2 / (1.0 + npow w 2))) (R.val A * R.val w ^ 2 / (1 + R.val w ^ 2)) (A' * W ^ 2 / (1 + W ^ 2))
  have h5 := h2.err
  norm_num at *
  linarith

end Itm.Props
