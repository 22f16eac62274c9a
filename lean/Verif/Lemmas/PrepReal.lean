import Verif.Lemmas.Hzns
import Verif.Lemmas.Dlthx
import Verif.Spec.Prep
import Verif.Model.Prep

/-! Parameter preparation over the reals. -/

namespace Itm
open Itm.Spec

theorem npSqrt_ok {x : ℝ} (h : 0 ≤ x) : npSqrt x = .ok (Real.sqrt x) := by
  unfold npSqrt
  have hz : (@OfScientific.ofScientific ℝ instPyNumReal.toOfScientific 0 true 1) = 0 := zero_lit
  rw [hz, if_neg (not_lt.2 h)]; rfl

theorem two_lit : (2.0 : ℝ) = 2 := by norm_num
theorem five_lit : (5.0 : ℝ) = 5 := by norm_num
theorem one_lit : (1.0 : ℝ) = 1 := by norm_num

theorem pflDl_ok {he κ dh : ℝ} (hκ : 0 < κ) (hh : 0 < he) (hd : 0 ≤ dh) : pflDl he κ dh = .ok (roughHorizon κ dh he) := by
  unfold pflDl
  simp only [pyMax_real, rexp, two_lit, five_lit]
  rw [pyDiv_ok hκ.ne', ok_bind, mathSqrt_ok (by positivity), ok_bind, mathSqrt_ok (by positivity), ok_bind]; rfl

theorem pflThe_ok {he κ dh : ℝ} (hκ : 0 < κ) (hh : 0 < he) : pflThe he (roughHorizon κ dh he) κ dh = .ok (roughAngle κ dh he) := by
  unfold pflThe
  simp only [two_lit, one_lit]
  rw [pyDiv_ok hκ.ne', ok_bind, mathSqrt_ok (by positivity), ok_bind, pyDiv_ok (roughHorizon_pos hκ hh).ne', ok_bind,
    pyDiv_ok (Real.sqrt_pos.2 (by positivity)).ne']
  rfl

theorem qlraHorizon_ok {he κ dh : ℝ} (hκ : 0 < κ) (hh : 0 < he) (hd : 0 ≤ dh) :
    qlraHorizon he κ dh = .ok (roughHorizon κ dh he, roughAngle κ dh he) := by
  unfold qlraHorizon
  simp only [pyMax_real, rexp, two_lit, five_lit, one_lit]
  rw [pyDiv_ok hκ.ne', ok_bind, npSqrt_ok (by positivity), ok_bind, npSqrt_ok (by positivity), ok_bind]
  have e : Real.sqrt (2 * he / κ) * Real.exp (-0.07 * Real.sqrt (dh / max he 5)) = roughHorizon κ dh he := rfl
  rw [e, pyDiv_ok (roughHorizon_pos hκ hh).ne', ok_bind, pyDiv_ok (Real.sqrt_pos.2 (by positivity)).ne', ok_bind]
  rfl

/-- What the markers do. -/
structure Marked {α : Type} (p q : PropSt α) : Prop where
  lvar : q.lvar = if 0 < p.klimx then 5 else if 0 ≤ p.mdvarx then max p.lvar 4 else max p.lvar 3
  mdvar : q.mdvar = if 0 ≤ p.mdvarx then some p.mdvarx else p.mdvar
  klim : q.klim = if 0 < p.klimx then some p.klimx else p.klim
  rest : q = { p with lvar := q.lvar, mdvar := q.mdvar, klim := q.klim }

theorem prepMarks_marked {α : Type} [PyNum α] (p : PropSt α) : Marked p (prepMarks p) := by
  unfold prepMarks
  by_cases h1 : 0 ≤ p.mdvarx <;> by_cases h2 : 0 < p.klimx
  · simp only [h1, h2, if_true]
    exact ⟨by simp [h2], by simp [h1], by simp [h2], rfl⟩
  · simp only [h1, h2, if_true, if_false]
    exact ⟨by simp [h1, h2], by simp [h1], by simp [h2], rfl⟩
  · simp only [h1, h2, if_true, if_false]
    exact ⟨by simp [h2], by simp [h1], by simp [h2], rfl⟩
  · simp only [h1, h2, if_false]
    exact ⟨by simp [h1, h2], by simp [h1], by simp [h2], rfl⟩

end Itm
