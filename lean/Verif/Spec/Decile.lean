import Mathlib.Data.Real.Basic

/-! Deciles, stated by counting. -/

namespace Itm.Spec

/-- `a` is a lower decile of the list `x` of `n` values: more than a tenth of `n - 1` values are at most `a`, and fewer than a tenth
of `n - 1`, plus one, are below it. -/
def LowerDecile (x : List ℝ) (a : ℝ) : Prop :=
  ((x.length : ℝ) - 1) / 10 < x.countP (fun y => decide (y ≤ a)) ∧ (x.countP (fun y => decide (y < a)) : ℝ) < ((x.length : ℝ) - 1) / 10 + 1

/-- `b` is an upper decile: a lower decile seen from the other end. -/
def UpperDecile (x : List ℝ) (b : ℝ) : Prop :=
  ((x.length : ℝ) - 1) / 10 < x.countP (fun y => decide (b ≤ y)) ∧ (x.countP (fun y => decide (b < y)) : ℝ) < ((x.length : ℝ) - 1) / 10 + 1

/-- `n` is an integer nearest to `v`. -/
def NearestInt (v : ℝ) (n : ℤ) : Prop := |(n : ℝ) - v| ≤ 1 / 2

end Itm.Spec
