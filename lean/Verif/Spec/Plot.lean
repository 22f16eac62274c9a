import Verif.Model.Vis

/-! What a figure with one curve per confidence level is supposed to show. -/

namespace Itm.Spec
open Itm

/-- The level a legend text names: the number it begins with. -/
def namedLevel (t : List Char) : Int := (t.takeWhile Char.isDigit).foldl (fun n c => 10 * n + ((c.toNat : Int) - 48)) 0

/-- The curve shows the losses of the level `c`, all of them and nothing else, from left to right. -/
structure Shows {κ β : Type} [LinearOrder κ] (rows : List (PlotRow κ β)) (c : Int) (k : Curve κ β) : Prop where
  ordered : (k.points.map Prod.fst).Pairwise (· < ·)
  all : ∀ x v, (x, some v) ∈ k.points ↔ ∃ r ∈ rows, r.x = x ∧ r.level = c ∧ r.loss = v

/-- Every level has a curve that shows it and whose text names it, and every text names the level its curve shows. -/
def Truthful {κ β : Type} [LinearOrder κ] (rows : List (PlotRow κ β)) (ks : List (Curve κ β)) : Prop :=
  (∀ r ∈ rows, ∃ k ∈ ks, Shows rows r.level k ∧ ∃ t, k.label = some t ∧ namedLevel t = r.level) ∧
  ∀ k ∈ ks, ∀ t, k.label = some t → Shows rows (namedLevel t) k

end Itm.Spec
