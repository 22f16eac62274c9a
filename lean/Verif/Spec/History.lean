import Verif.Model.Prep
import Verif.Model.Stats

/-! Histories of API calls on one dictionary, with the `lvar` protocol of the manual: after a parameter
change `lvar` is raised to at least the level of the parameter
(1 distance, 2 effective heights, 3 wave number, 4 mode of variability, 5 climate). -/

namespace Itm.Spec
variable {α : Type} [PyNum α]

/-- Parameters `avar` does not read; they may be changed at will. -/
structure PathIn (α : Type) where
  hg : Pair α
  dl : Pair α
  the : Pair α
  ens : α
  gme : α
  zgnd : Cx α
  mdp : Int
  klimx : Int
  mdvarx : Int
  pfl : Pfl α

/-- A user action. -/
inductive Op (α : Type) where
  | setDist (x : α)
  | setDh (x : α)
  | setHe (x : Pair α)
  | setWn (x : α)
  | setMdvar (m : Int)
  | setKlim (k : Int)
  | setAref (x : α)
  | setPath (x : PathIn α)
  | raise (n : Int)
  | callLrprop (d : α)
  | callQlra (kst : Pair Int)
  | callQlrpfl
  | callAvar (zt zl zc : α)

/-- Effect of a user action on the dictionary. -/
def Op.run : Op α → PropSt α → Py (PropSt α)
  | .setDist x, p => pure { p with dist := x, lvar := max p.lvar 1 }
  | .setDh x, p => pure { p with dh := x, lvar := max p.lvar 1 }
  | .setHe x, p => pure { p with he := x, lvar := max p.lvar 2 }
  | .setWn x, p => pure { p with wn := x, lvar := max p.lvar 3 }
  | .setMdvar m, p => pure { p with mdvar := some m, lvar := max p.lvar 4 }
  | .setKlim k, p => pure { p with klim := some k, lvar := max p.lvar 5 }
  | .setAref x, p => pure { p with aref := some x }
  | .setPath x, p => pure { p with hg := x.hg, dl := x.dl, the := x.the, ens := x.ens, gme := x.gme,
                                   zgnd := x.zgnd, mdp := x.mdp, klimx := x.klimx, mdvarx := x.mdvarx, pfl := x.pfl }
  | .raise n, p => pure { p with lvar := max p.lvar n }
  | .callLrprop d, p => lrprop d { p with lvar := max 1 p.lvar }
  | .callQlra kst, p => qlra kst p
  | .callQlrpfl, p => qlrpfl p
  | .callAvar zt zl zc, p => do
    let (_, p) ← avar zt zl zc p
    pure p

/-- `Reach p q`: some finite sequence of successful user actions leads from `p` to `q`. -/
inductive Reach (p : PropSt α) : PropSt α → Prop where
  | refl : Reach p p
  | step {q r : PropSt α} (op : Op α) : Reach p q → op.run q = .ok r → Reach p r

end Itm.Spec
