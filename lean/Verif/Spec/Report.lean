import Verif.Model.Runners

/-! What a row of a report is supposed to contain. -/

namespace Itm.Spec
variable {α : Type} [PyNum α]

/-- `z` is the deviate of the level `x` percent. -/
def DeviateOf (x : Int) (z : α) : Prop := qerfi [PyNum.ofInt x / 100.0] = .ok [z]

/-- A point-to-point row for reliability `r` and confidence `c` percent: requested distance `d`, and free-space loss `fs`
plus the quantile `avar` gives, on the prepared dictionary `q`, for the deviates of exactly these two levels. -/
def P2PRowFor (q : PropSt α) (d fs : α) (r c : Int) (row : P2PRow α) : Prop :=
  row.distance_km = d ∧ row.reliability = r ∧ row.confidence = c ∧
    ∃ zr zc a q', DeviateOf r zr ∧ DeviateOf c zc ∧ avar zr 0.0 zc q = .ok (a, q') ∧ row.loss = fs + a

/-- An area row for confidence `c` percent at distance `d` (km): free-space loss plus the quantile for the deviates of
`t` percent of time, `l` percent of locations and `c` percent confidence. -/
def AreaRowFor (q : PropSt α) (d fs : α) (t l c : Int) (row : AreaRow α) : Prop :=
  row.distance_km = d ∧ row.confidence = c ∧
    ∃ zt zl zc a q', DeviateOf t zt ∧ DeviateOf l zl ∧ DeviateOf c zc ∧ avar zt zl zc q = .ok (a, q') ∧ row.loss = fs + a

/-- All pairs, first component major. -/
def pairs (xs ys : List Int) : List (Int × Int) := xs.flatMap fun x => ys.map fun y => (x, y)

end Itm.Spec
