import Verif.Lemmas.DiffReal

/-! The complex square root. -/

namespace Itm

/-- In the first quadrant. -/
theorem cxsqrt_right {α : Type} [PyNum α] {z : Cx α} (h0 : ¬ (pyEq z.re 0.0 ∧ pyEq z.im 0.0)) (h1 : 0.0 ≤ z.re) (h2 : ¬ z.im < 0.0) :
    Cx.sqrt z = ⟨2.0 * PyNum.sqrt (PyNum.abs z.re / 8.0 + Cx.abs ⟨PyNum.abs z.re / 8.0, PyNum.abs z.im / 8.0⟩),
      PyNum.abs z.im / (2.0 * (2.0 * PyNum.sqrt (PyNum.abs z.re / 8.0 + Cx.abs ⟨PyNum.abs z.re / 8.0, PyNum.abs z.im / 8.0⟩)))⟩ := by
  unfold Cx.sqrt
  dsimp only
  rw [if_neg h0, if_pos h1, if_neg h2]

/-- In exact arithmetic: the half-angle formulas. -/
theorem cxsqrt_real (z : Cx ℝ) : Cx.sqrt z = ⟨PyNum.sqrt ((z.abs + z.re) / 2.0), if z.im < 0.0 then -(PyNum.sqrt ((z.abs - z.re) / 2.0)) else PyNum.sqrt ((z.abs - z.re) / 2.0)⟩ := by
  obtain ⟨m, hm⟩ : ∃ m, m = z.abs := ⟨_, rfl⟩
  have hm2 : m ^ 2 = z.re ^ 2 + z.im ^ 2 := by
    rw [hm, cxabs_real, Real.sq_sqrt (by nlinarith [mul_self_nonneg z.re, mul_self_nonneg z.im])]; ring
  have hm0 : 0 ≤ m := by rw [hm, cxabs_real]; exact Real.sqrt_nonneg _
  have hr : |z.re| ≤ m := abs_le_of_sq_le_sq (by nlinarith [sq_nonneg z.im]) hm0
  have h8 : Cx.abs (⟨|z.re| / 8, |z.im| / 8⟩ : Cx ℝ) = m / 8 := by
    rw [cxabs_real]
    dsimp only
    rw [show |z.re| / 8 * (|z.re| / 8) + |z.im| / 8 * (|z.im| / 8) = (m / 8) ^ 2 by
      rw [div_pow, hm2, ← sq_abs z.re, ← sq_abs z.im]; ring, Real.sqrt_sq (by positivity)]
  have hs : 2 * √(|z.re| / 8 + m / 8) = √((m + |z.re|) / 2) := by
    rw [show (m + |z.re|) / 2 = 2 ^ 2 * (|z.re| / 8 + m / 8) by ring, Real.sqrt_mul (by norm_num), Real.sqrt_sq (by norm_num)]
  have hd : |z.im| / (2 * √((m + |z.re|) / 2)) = √((m - |z.re|) / 2) := by
    rcases eq_or_lt_of_le (show 0 ≤ m + |z.re| by positivity) with h | h
    · have h1 : |z.re| = 0 := by linarith [abs_nonneg z.re]
      have h2 : m = 0 := by linarith
      rw [h1, h2]; norm_num
    · have hp : 0 < √((m + |z.re|) / 2) := Real.sqrt_pos.2 (by linarith)
      rw [div_eq_iff (by positivity)]
      have : √((m - |z.re|) / 2) * √((m + |z.re|) / 2) = |z.im| / 2 := by
        rw [← Real.sqrt_mul (by linarith), show (m - |z.re|) / 2 * ((m + |z.re|) / 2) = (|z.im| / 2) ^ 2 by
          rw [div_pow, sq_abs]; nlinarith [sq_abs z.re], Real.sqrt_sq (by positivity)]
      linarith
  unfold Cx.sqrt
  simp only [rsqrt, rabs, zero_lit, show (8.0 : ℝ) = 8 by norm_num, show (2.0 : ℝ) = 2 by norm_num, h8, hs, hd, ← hm]
  by_cases h0 : pyEq z.re 0 ∧ pyEq z.im 0
  · rw [if_pos h0]
    rw [pyEq_real, pyEq_real] at h0
    have : m = 0 := by rw [h0.1, h0.2] at hm2; nlinarith
    rw [this, h0.1, h0.2]
    norm_num
  · rw [if_neg h0]
    by_cases h1 : 0 ≤ z.re
    · rw [if_pos h1, abs_of_nonneg h1]
    · rw [if_neg h1, abs_of_neg (not_le.1 h1), ← sub_eq_add_neg, sub_neg_eq_add]

end Itm
