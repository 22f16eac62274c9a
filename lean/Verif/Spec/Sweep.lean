import Verif.Model.Lrprop
import Verif.PyReal

/-! Area sweeps: distances asked one after another on one dictionary. -/

namespace Itm.Spec
open Itm
variable {α : Type} [PyNum α]

/-- `for d in distances: prop = lrprop(d, prop)` (`area.py` 194-200 calls `lrprop` this way). -/
def sweep : List α → PropSt α → Py (PropSt α)
  | [], p => pure p
  | d :: ds, p => do
    let p ← lrprop d p
    sweep ds p

/-- The reference attenuation a call leaves behind (or its exception). -/
def arefOf (r : Py (PropSt α)) : Py (Option α) := r.map (fun p => p.aref)

/-- Which distance of a sweep the attenuation it leaves belongs to, in a program that keeps the attenuation at a distance within the
horizon if one was asked before: the last one that is the first within the horizon, or beyond it, or not positive. -/
inductive AnswerFor (dlsa : ℝ) : List ℝ → ℝ → Prop
  | own (ds : List ℝ) (D : ℝ) (h : dlsa ≤ D ∨ D ≤ 0 ∨ ∀ d ∈ ds, dlsa ≤ d) : AnswerFor dlsa (ds ++ [D]) D
  | kept (ds : List ℝ) (D E : ℝ) (h0 : 0 < D) (hD : D < dlsa) (h : ∃ d ∈ ds, d < dlsa) (hE : AnswerFor dlsa ds E) : AnswerFor dlsa (ds ++ [D]) E

end Itm.Spec
