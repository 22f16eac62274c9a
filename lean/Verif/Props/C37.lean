import Verif.Lemmas.Dlthx
import Mathlib.Tactic.IntervalCases

/-! C37: the terrain irregularity `dlthx`. -/

namespace Itm.Props
open Itm Itm.Spec

/-- **C37** For every window inside the profile `dlthx` succeeds; over at least two intervals it returns the interdecile range of the
detrended terrain, over less it returns 0. -/
theorem C37_value {p : Pfl ℝ} {x1 x2 : ℝ} (hx : 0 < p.xi) (hl : p.np < p.z.length) (h1 : 0 ≤ x1) (h2 : x2 ≤ p.np * p.xi) :
    ∃ v, dlthx p x1 x2 = .ok v ∧
      (2 ≤ x2 / p.xi - x1 / p.xi → IsIrregularity (fun j => p.z.getD j 0) (x1 / p.xi) (x2 / p.xi) (x2 - x1) v) ∧
      (x2 / p.xi - x1 / p.xi < 2 → v = 0) := by
  rcases le_or_gt 2 (x2 / p.xi - x1 / p.xi) with h | h
  · obtain ⟨v, e, hv⟩ := dlthx_ok hx hl h1 h2 h
    exact ⟨v, e, fun _ => hv, fun hc => absurd hc (not_lt.2 h)⟩
  · exact ⟨0, dlthx_short hx h, fun hc => absurd hc (not_le.2 h), fun _ => rfl⟩

/-- **C37** The specification determines the value. -/
theorem C37_determined {z : ℕ → ℝ} {xa xb L v w : ℝ} (h : IsIrregularity z xa xb L v) (h' : IsIrregularity z xa xb L w) : v = w :=
  irregularity_unique h h'

/-- **C37** The irregularity is not negative. -/
theorem C37_nonneg {p : Pfl ℝ} {x1 x2 v : ℝ} (hx : 0 < p.xi) (hl : p.np < p.z.length) (h1 : 0 ≤ x1) (h2 : x2 ≤ p.np * p.xi)
    (h : dlthx p x1 x2 = .ok v) : 0 ≤ v := by
  obtain ⟨w, e, hw, hw0⟩ := C37_value hx hl h1 h2
  rw [h, ok_inj] at e
  subst e
  rcases le_or_gt 2 (x2 / p.xi - x1 / p.xi) with c | c
  · refine irregularity_nonneg ?_ (hw c)
    by_contra hc
    have : x2 / p.xi ≤ x1 / p.xi := div_le_div_of_nonneg_right (by linarith) hx.le
    linarith
  · exact (hw0 c).ge

/-- **C37** Scaling all elevations by `u` and adding any straight line multiplies the irregularity by `|u|`. -/
theorem C37_affine {p q : Pfl ℝ} {x1 x2 u c s v : ℝ} (hx : 0 < p.xi) (hl : p.np < p.z.length) (h1 : 0 ≤ x1) (h2 : x2 ≤ p.np * p.xi)
    (hnp : q.np = p.np) (hxi : q.xi = p.xi) (hlen : q.z.length = p.z.length)
    (hz : ∀ j, j < p.z.length → q.z.getD j 0 = u * p.z.getD j 0 + (c + s * j)) (h : dlthx p x1 x2 = .ok v) :
    dlthx q x1 x2 = .ok (|u| * v) := by
  have hxq : 0 < q.xi := by rw [hxi]; exact hx
  obtain ⟨w, e, hw, hw0⟩ := C37_value hx hl h1 h2
  rw [h, ok_inj] at e
  subst e
  rcases le_or_gt 2 (x2 / p.xi - x1 / p.xi) with cc | cc
  · have hBn : x2 / p.xi ≤ p.np := by rw [div_le_iff₀ hx]; exact h2
    have hA0 : 0 ≤ x1 / p.xi := by positivity
    have hnn : 0 ≤ p.np := by
      have : (0 : ℝ) ≤ p.np := by linarith
      exact_mod_cast this
    obtain ⟨n, hn⟩ := Int.eq_ofNat_of_zero_le hnn
    obtain ⟨v', e', hv'⟩ := dlthx_ok (p := q) (x1 := x1) (x2 := x2) hxq (by rw [hnp, hlen]; exact hl) h1 (by rw [hnp, hxi]; exact h2) (by rw [hxi]; exact cc)
    rw [e', ok_inj]
    rw [hxi] at hv'
    have := irregularity_affine (z' := q.h) (u := u) (c := c) (s := s) (n := n) hA0 cc (by rw [hn] at hBn; exact_mod_cast hBn) (fun j hj => hz j (by omega)) (hw cc)
    exact irregularity_unique hv' this
  · rw [hw0 cc, mul_zero]
    exact dlthx_short hxq (by rw [hxi]; exact cc)

/-- **C37** Straight terrain has irregularity 0. -/
theorem C37_straight {p : Pfl ℝ} {x1 x2 c s : ℝ} (hx : 0 < p.xi) (hl : p.np < p.z.length) (h1 : 0 ≤ x1) (h2 : x2 ≤ p.np * p.xi)
    (hz : ∀ j, j < p.z.length → p.z.getD j 0 = c + s * j) : dlthx p x1 x2 = .ok 0 := by
  obtain ⟨w, e, -⟩ := C37_value hx hl h1 h2
  have := C37_affine (q := p) (u := 0) (c := c) (s := s) hx hl h1 h2 rfl rfl rfl (fun j hj => by rw [zero_mul, zero_add]; exact hz j hj) e
  rw [this]; simp

/-- A hill of height 4 on a path of four intervals; the same hill upside down and on a slope. -/
example : ∃ v, dlthx (⟨4, 1, [0, 1, 4, 2, 0]⟩ : Pfl ℝ) 0 4 = .ok v ∧ 0 ≤ v ∧ dlthx (⟨4, 1, [7, 7, 3, 9, 15]⟩ : Pfl ℝ) 0 4 = .ok (|-2| * v) := by
  obtain ⟨v, e, -⟩ := C37_value (p := ⟨4, 1, [0, 1, 4, 2, 0]⟩) (x1 := 0) (x2 := 4) (by norm_num) (by norm_num) (by norm_num) (by norm_num)
  refine ⟨v, e, C37_nonneg (by norm_num) (by norm_num) (by norm_num) (by norm_num) e, ?_⟩
  refine C37_affine (p := ⟨4, 1, [0, 1, 4, 2, 0]⟩) (c := 7) (s := 2) (by norm_num) (by norm_num) (by norm_num) (by norm_num) rfl rfl rfl ?_ e
  intro j hj
  have : j < 5 := hj
  interval_cases j <;> norm_num [List.getD]

end Itm.Props
