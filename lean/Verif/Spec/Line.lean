import Mathlib.Data.Real.Basic
import Mathlib.Algebra.BigOperators.Ring.Finset
import Mathlib.Algebra.Order.BigOperators.Group.Finset

/-! Least-squares lines through equally spaced samples. -/

namespace Itm.Spec
open Finset

/-- Trapezoidal sum of `f` over the `m` intervals that start at sample `a`. -/
noncomputable def trap (f : ℕ → ℝ) (a m : ℕ) : ℝ := ∑ i ∈ range m, (f (a + i) + f (a + i + 1)) / 2

/-- Squared error of the line `c + s t` (`t` counted in samples) over the window. -/
noncomputable def lineErr (z : ℕ → ℝ) (a m : ℕ) (c s : ℝ) : ℝ := trap (fun j => (z j - (c + s * j)) ^ 2) a m

/-- The line `c + s t` is a least-squares fit over the window. -/
def BestLine (z : ℕ → ℝ) (a m : ℕ) (c s : ℝ) : Prop := ∀ c' s', lineErr z a m c s ≤ lineErr z a m c' s'

end Itm.Spec
