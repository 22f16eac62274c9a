import Verif.Lemmas.AvarRound
import Verif.Lemmas.Chop
import Verif.Props.C74

/-! C75: the quantile formula in rounding arithmetic. -/

namespace Itm.Props

open Itm Spec
variable {α : Type} [PyNum α]

/-- In any arithmetic that rounds like doubles do, for all coefficients of the sizes that occur, reference attenuations up to `1e5` dB and
deviates up to 10, and in all four modes: the quantile is answered, and it is within `4e-9` dB of what exact arithmetic gives for the same
coefficients, reference attenuation and deviates. -/
theorem C75_quantile (R : Rounding α) (kdv : ℤ) (zd : α) (v : VarC α) (hv : VarSized R zd v) (ar zt zl zc : α)
    (ha : R.fin ar) (ha' : |R.val ar| ≤ 1e5) (ht : R.fin zt) (ht' : |R.val zt| ≤ 10) (hl : R.fin zl) (hl' : |R.val zl| ≤ 10)
    (hc : R.fin zc) (hc' : |R.val zc| ≤ 10) :
    ∃ a b, avarQuantile kdv zd v ar zt zl zc = .ok a ∧ R.fin a ∧
      avarQuantile kdv (R.val zd) (valC R v) (R.val ar) (R.val zt) (R.val zl) (R.val zc) = .ok b ∧ |R.val a - b| ≤ 4e-9 := by
  obtain ⟨a, ea, na, -⟩ := avarQuantile_round hv kdv ha ha' ht ht' hl hl' hc hc'
  exact ⟨a, _, ea, na.fin, avarQuantile_ok (by have := hv.zdb.1; linarith) hv.vs0.1 kdv _ _ _ _, na.err⟩

theorem softR_slope_ge {x y : ℝ} (h : x ≤ y) : 0.1 * (y - x) ≤ softR y - softR x := by
  have hneg : ∀ c : ℝ, c < 0 → softR c = 0.1 * c + 26.1 * c / (29 - 10 * c) := by
    intro c hc
    have hne : 29 - 10 * c ≠ 0 := by linarith
    unfold softR
    rw [if_pos hc, show 0.1 * c + 26.1 * c / (29 - 10 * c) = (0.1 * c * (29 - 10 * c) + 26.1 * c) / (29 - 10 * c) by
      rw [add_div, mul_div_cancel_right₀ _ hne]]
    congr 1
    ring
  by_cases hy : y < 0
  · rw [hneg x (by linarith), hneg y hy]
    have : 26.1 * x / (29 - 10 * x) ≤ 26.1 * y / (29 - 10 * y) := by
      rw [div_le_div_iff₀ (by linarith) (by linarith)]
      nlinarith
    linarith
  · have ey : softR y = y := by unfold softR; rw [if_neg hy]
    by_cases hx : x < 0
    · rw [hneg x hx, ey]
      have : 26.1 * x / (29 - 10 * x) ≤ 0 := div_nonpos_of_nonpos_of_nonneg (by linarith) (by linarith)
      linarith
    · have ex : softR x = x := by unfold softR; rw [if_neg hx]
      rw [ex, ey]
      linarith

theorem signed_gap {Q : ℝ → ℝ} {M : ℝ} (h1 : ∀ z, 1 ≤ Q z) (hM : ∀ z, Q z ≤ M ^ 2) (hM0 : 1 ≤ M)
    (hk : ∀ x y, x ^ 2 ≤ y ^ 2 → x ^ 2 * (Q x - 1) ≤ y ^ 2 * (Q y - 1)) {x y : ℝ} (h : x ≤ y) :
    (y - x) / M ≤ y * √(Q y) - x * √(Q x) := by
  have hs1 : ∀ z, 1 ≤ √(Q z) := fun z => Real.le_sqrt_of_sq_le (by rw [one_pow]; exact h1 z)
  have hsM : ∀ z, √(Q z) ≤ M := fun z => Real.sqrt_le_iff.2 ⟨by linarith, hM z⟩
  have hsq : ∀ z, √(Q z) ^ 2 = Q z := fun z => Real.sq_sqrt (by linarith [h1 z])
  have pos : ∀ x y : ℝ, 0 ≤ x → x ≤ y → (y - x) / M ≤ y * √(Q y) - x * √(Q x) := by
    intro x y hx h
    have k := hk x y (by nlinarith)
    have e1 := hsq x
    have e2 := hsq y
    have b1 := hsM x
    have b2 := hsM y
    have c1 := hs1 x
    have c2 := hs1 y
    rw [← e1, ← e2] at k
    generalize √(Q x) = p at *
    generalize √(Q y) = q at *
    rw [div_le_iff₀ (by linarith)]
    rcases eq_or_lt_of_le (add_nonneg (hx.trans h) hx) with h0 | h0
    · have : x = 0 := by linarith
      have hy : y = 0 := by linarith
      rw [this, hy]; simp
    · have hb : y * q + x * p ≤ (y + x) * M := by nlinarith
      have hprod : (y - x) * (y + x) ≤ (y * q - x * p) * (y * q + x * p) := by nlinarith
      have hnn : 0 ≤ y * q - x * p := by
        by_contra hc
        push Not at hc
        have : 0 < y * q + x * p := by nlinarith
        nlinarith
      have h3 := mul_le_mul_of_nonneg_left hb hnn
      by_contra hc
      push Not at hc
      have := mul_lt_mul_of_pos_right hc h0
      nlinarith
  by_cases hx : 0 ≤ x
  · exact pos x y hx h
  · push Not at hx
    by_cases hy : y ≤ 0
    · have hneg : ∀ x y : ℝ, y ≤ 0 → x ≤ y → (y - x) / M ≤ y * √(Q y) - x * √(Q x) := by
        intro x y hy h
        have k := hk y x (by nlinarith)
        have e1 := hsq x
        have e2 := hsq y
        have b1 := hsM x
        have b2 := hsM y
        have c1 := hs1 x
        have c2 := hs1 y
        rw [← e1, ← e2] at k
        generalize √(Q x) = p at *
        generalize √(Q y) = q at *
        rw [div_le_iff₀ (by linarith)]
        rcases eq_or_lt_of_le (add_nonneg (neg_nonneg.2 hy) (neg_nonneg.2 (h.trans hy))) with h0 | h0
        · have : x = 0 := by linarith
          have hy : y = 0 := by linarith
          rw [this, hy]; simp
        · have hb : -y * q + -x * p ≤ (-y + -x) * M := by nlinarith
          have hprod : (y - x) * (-y + -x) ≤ (y * q - x * p) * (-y * q + -x * p) := by nlinarith
          have hnn : 0 ≤ y * q - x * p := by
            by_contra hc
            push Not at hc
            have : 0 < -y * q + -x * p := by nlinarith
            nlinarith
          have h3 := mul_le_mul_of_nonneg_left hb hnn
          by_contra hc
          push Not at hc
          have := mul_lt_mul_of_pos_right hc h0
          nlinarith
      exact hneg x y hy h
    · push Not at hy
      have c1 := hs1 x
      have c2 := hs1 y
      have : (y - x) / M ≤ y - x := div_le_self (by linarith) hM0
      nlinarith

theorem conf_gap {A B C D M : ℝ} (hA : 1 ≤ A) (hB : 0 ≤ B) (hC : 0 ≤ C) (hD : 0 ≤ D) (hM : A + B + C + D ≤ M ^ 2) (hM0 : 1 ≤ M) {x y : ℝ}
    (h : x ≤ y) : (y - x) / M ≤ y * √(A + C / (7.8 + y ^ 2) + (B * y ^ 2 + D) / (24 + y ^ 2)) -
      x * √(A + C / (7.8 + x ^ 2) + (B * x ^ 2 + D) / (24 + x ^ 2)) := by
  refine signed_gap (Q := fun z => A + C / (7.8 + z ^ 2) + (B * z ^ 2 + D) / (24 + z ^ 2)) (fun z => ?_) (fun z => ?_) hM0 ?_ h
  · have h1 : 0 ≤ C / (7.8 + z ^ 2) := by positivity
    have h2 : 0 ≤ (B * z ^ 2 + D) / (24 + z ^ 2) := by positivity
    linarith
  · have hz := sq_nonneg z
    have h1 : C / (7.8 + z ^ 2) ≤ C := div_le_self hC (by linarith)
    have h2 : (B * z ^ 2 + D) / (24 + z ^ 2) ≤ B + D := by
      rw [div_le_iff₀ (by positivity)]
      nlinarith [mul_nonneg hD hz]
    linarith
  · intro x y h
    have f : ∀ z : ℝ, z ^ 2 * (A + C / (7.8 + z ^ 2) + (B * z ^ 2 + D) / (24 + z ^ 2) - 1) =
        (A - 1) * z ^ 2 + C * (z ^ 2 / (7.8 + z ^ 2)) + (B * z ^ 2 + D) * (z ^ 2 / (24 + z ^ 2)) := by
      intro z; ring
    rw [f, f]
    have g1 := frac_mono (c := 7.8) (by norm_num) (sq_nonneg x) h
    have g2 := frac_mono (c := 24) (by norm_num) (sq_nonneg x) h
    have hA' : 0 ≤ A - 1 := by linarith
    gcongr

theorem sgtR_bound {R : Rounding α} {zd : α} {v : VarC α} (hv : VarSized R zd v) (z : ℝ) : |sgtR (R.val zd) (valC R v) z| ≤ 1500 := by
  unfold sgtR
  split_ifs with h1 h2
  · exact hv.sgtm.trans (by norm_num)
  · exact hv.sgtp.trans (by norm_num)
  · push Not at h2
    have hzd := hv.zdb
    have hz : 0 < z := by linarith
    have hq : |R.val v.tgtd / z| ≤ 500 := by
      rw [abs_div, abs_of_pos hz, div_le_iff₀ hz]
      have := hv.tgtd
      have := hv.sgtd
      nlinarith
    change |R.val v.sgtd + R.val v.tgtd / z| ≤ 1500
    refine (abs_add_le _ _).trans ?_
    rw [abs_of_nonneg hv.sgtd.1]
    have := hv.sgtd.2
    linarith

/-- More confidence means more loss, exactly and in spite of rounding: with the situation variability on (`vs0 ≥ 1`) and deviates at least
`0.003` apart (as those of different integer percentages are), the smaller confidence deviate gives the larger quantile, by at least
`1e-8` dB. -/
theorem C75_confidence (R : Rounding α) (kdv : ℤ) (hk : kdv ≠ 0) (zd : α) (v : VarC α) (hv : VarSized R zd v) (hv1 : 1 ≤ R.val v.vs0)
    (ar zt zl zc zc' a a' : α) (ha : R.fin ar) (ha' : |R.val ar| ≤ 1e5) (ht : R.fin zt) (ht' : |R.val zt| ≤ 10) (hl : R.fin zl)
    (hl' : |R.val zl| ≤ 10) (hc : R.fin zc) (hc' : |R.val zc| ≤ 10) (hd : R.fin zc') (hd' : |R.val zc'| ≤ 10)
    (hz : R.val zc' + 0.003 ≤ R.val zc)
    (e : avarQuantile kdv zd v ar zt zl zc = .ok a) (e' : avarQuantile kdv zd v ar zt zl zc' = .ok a') : R.val a + 1e-8 ≤ R.val a' := by
  obtain ⟨b, eb, nb, -⟩ := avarQuantile_round hv kdv ha ha' ht ht' hl hl' hc hc'
  obtain ⟨b', eb', nb', -⟩ := avarQuantile_round hv kdv ha ha' ht ht' hl hl' hd hd'
  rw [e, ok_inj] at eb
  rw [e', ok_inj] at eb'
  subst eb eb'
  have hsl : (R.val v.sgl) ^ 2 ≤ 1e4 := by
    have := hv.sgl; rw [abs_le] at this; norm_num; nlinarith [this.1, this.2]
  have hT : tdev (R.val zd) (valC R v) (R.val zt) ^ 2 ≤ 2.25e8 := by
    have h1 := sgtR_bound hv (R.val zt)
    have : |tdev (R.val zd) (valC R v) (R.val zt)| ≤ 15000 := by
      unfold tdev
      rw [abs_mul]
      calc _ ≤ (1500 : ℝ) * 10 := mul_le_mul h1 ht' (abs_nonneg _) (by norm_num)
        _ = 15000 := by norm_num
    rw [abs_le] at this
    norm_num
    nlinarith [this.1, this.2]
  have hLb : ∀ z : ℝ, |z| ≤ 10 → (R.val v.sgl * z) ^ 2 ≤ 1e6 := by
    intro z hz
    have : z ^ 2 ≤ 100 := by rw [abs_le] at hz; nlinarith [hz.1, hz.2]
    rw [mul_pow]
    calc _ ≤ (1e4 : ℝ) * 100 := mul_le_mul hsl this (sq_nonneg _) (by norm_num)
      _ ≤ 1e6 := by norm_num
  have hv2 := hv.vs0.2
  have gap : (R.val zc - R.val zc') / 16000 ≤ devR kdv (R.val zd) (valC R v) (R.val zt) (R.val zl) (R.val zc) -
      devR kdv (R.val zd) (valC R v) (R.val zt) (R.val zl) (R.val zc') := by
    have E : ∀ L : ℝ, L ^ 2 ≤ 1e6 → (R.val zc - R.val zc') / 16000 ≤
        R.val zc * √(vsR (valC R v) (tdev (R.val zd) (valC R v) (R.val zt)) L (R.val zc)) -
        R.val zc' * √(vsR (valC R v) (tdev (R.val zd) (valC R v) (R.val zt)) L (R.val zc')) := by
      intro L hL
      have := conf_gap (A := R.val v.vs0) (B := 0) (C := tdev (R.val zd) (valC R v) (R.val zt) ^ 2) (D := L ^ 2) (M := 16000)
        hv1 (le_refl _) (by positivity) (by positivity) (by norm_num at *; linarith) (by norm_num)
        (show R.val zc' ≤ R.val zc by norm_num at *; linarith)
      simp only [zero_mul, zero_add] at this
      exact this
    unfold devR
    simp only [if_neg hk]
    by_cases h1 : kdv = 1
    · simp only [if_pos h1]
      have := conf_gap (A := R.val v.sgl ^ 2 + R.val v.vs0) (B := R.val v.sgl ^ 2) (C := tdev (R.val zd) (valC R v) (R.val zt) ^ 2)
        (D := 0) (M := 16000) (by nlinarith [sq_nonneg (R.val v.sgl)]) (by positivity) (by positivity) (le_refl _)
        (by norm_num at *; linarith) (by norm_num) (show R.val zc' ≤ R.val zc by norm_num at *; linarith)
      have f : ∀ z : ℝ, (valC R v).sgl ^ 2 + vsR (valC R v) (tdev (R.val zd) (valC R v) (R.val zt)) ((valC R v).sgl * z) z =
          R.val v.sgl ^ 2 + R.val v.vs0 + tdev (R.val zd) (valC R v) (R.val zt) ^ 2 / (7.8 + z ^ 2) +
            (R.val v.sgl ^ 2 * z ^ 2 + 0) / (24 + z ^ 2) := by
        intro z; unfold vsR; simp only [valC]; ring
      rw [f, f]; linarith
    · simp only [if_neg h1]
      by_cases h2 : kdv = 2
      · simp only [if_pos h2]
        have := E ((valC R v).sgl * R.val zt) (hLb _ ht')
        linarith
      · simp only [if_neg h2]
        have := E ((valC R v).sgl * R.val zl) (hLb _ hl')
        linarith
  have hs := softR_slope_ge (x := R.val ar - R.val v.vmd - devR kdv (R.val zd) (valC R v) (R.val zt) (R.val zl) (R.val zc))
    (y := R.val ar - R.val v.vmd - devR kdv (R.val zd) (valC R v) (R.val zt) (R.val zl) (R.val zc')) (by norm_num at *; linarith)
  have h1 := nb.le
  have h2 := nb'.ge
  norm_num at *
  linarith

theorem val_int (R : Rounding α) (n : ℤ) (h : |n| ≤ 2 ^ 53) : R.fin (PyNum.ofInt n : α) ∧ R.val (PyNum.ofInt n : α) = n := by
  have hb : |(n : ℝ)| ≤ 2 ^ 53 := by exact_mod_cast h
  obtain ⟨f, v⟩ := R.ofInt n (le_roundBig (hb.trans (by norm_num)))
  refine ⟨f, v.trans ?_⟩
  have := R.exact n 0 h (by norm_num) (by norm_num)
  simpa using this

/-- Coefficients of the sizes occurring in practice meet the hypotheses. -/
example (R : Rounding α) : VarSized R (PyNum.ofInt 2 : α)
    { vmd := PyNum.ofInt 5, sgtm := PyNum.ofInt 10, sgtp := PyNum.ofInt 9, sgtd := PyNum.ofInt 12, tgtd := PyNum.ofInt (-6),
      sgl := PyNum.ofInt 8, vs0 := PyNum.ofInt 34 } := by
  have h : ∀ n : ℤ, |n| ≤ 100 → R.fin (PyNum.ofInt n : α) ∧ R.val (PyNum.ofInt n : α) = n := fun n hn => val_int R n (hn.trans (by norm_num))
  have a2 := h 2 (by norm_num)
  have a5 := h 5 (by norm_num)
  have a10 := h 10 (by norm_num)
  have a9 := h 9 (by norm_num)
  have a12 := h 12 (by norm_num)
  have a6 := h (-6) (by norm_num)
  have a8 := h 8 (by norm_num)
  have a34 := h 34 (by norm_num)
  constructor <;> simp only [a2, a5, a10, a9, a12, a6, a8, a34] <;> norm_num

end Itm.Props
