import Verif.Model.Runners
import Mathlib.Data.Real.Basic

/-! What the distance grid of an area prediction is supposed to be. -/

namespace Itm.Spec

/-- Two legs of equally spaced distances: `n1` from `d0` in steps of `ds1`, then `n2` further ones in steps of `ds2`. -/
noncomputable def twoLegs (d0 ds1 : ℝ) (n1 : ℕ) (ds2 : ℝ) (n2 : ℕ) : List ℝ :=
  (List.range n1).map (fun i : ℕ => d0 + i * ds1) ++ (List.range n2).map (fun j : ℕ => d0 + (n1 - 1) * ds1 + (j + 1) * ds2)

/-- `e` is `d` rounded to the grid of step `s`: at most a quarter step short, at most three quarters beyond. -/
def RoundedTo (d s e : ℝ) : Prop := d - s / 4 < e ∧ e ≤ d + 3 / 4 * s

/-- The distances of a grid with two legs: the fine leg ends at the rounded `d1`; the coarse leg, if there is one, at the rounded `d2`. -/
def GridOf (g : Grid ℝ) (ds : List ℝ) : Prop :=
  ∃ n1 n2 : ℕ, 1 ≤ n1 ∧ ds = twoLegs g.d0 g.ds1 n1 g.ds2 n2 ∧ RoundedTo g.d1 g.ds1 (g.d0 + (n1 - 1) * g.ds1) ∧
    (g.d2 ≤ g.d0 + (n1 - 1) * g.ds1 ∨ g.ds2 ≤ 0 → n2 = 0) ∧
    (g.d0 + (n1 - 1) * g.ds1 < g.d2 → 0 < g.ds2 → RoundedTo g.d2 g.ds2 (g.d0 + (n1 - 1) * g.ds1 + n2 * g.ds2))

end Itm.Spec
