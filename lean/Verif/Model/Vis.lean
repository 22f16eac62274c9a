import Verif.Model.Runners
import Mathlib.Data.List.Dedup
import Mathlib.Data.List.Sort

/-! `vis/vis.py`: from the table of results to the curves of the two figures. pandas and matplotlib are modelled by what they are documented
to do with such a table; axes, colours and the image itself are not modelled. -/

namespace Itm

/-- One row of a result table as `read_csv` returns it (`vis.py` 32 and 57, 59): the column that becomes the horizontal axis (`distance_km`
or `reliability_level_%`), the confidence level and the loss. -/
structure PlotRow (κ β : Type) where
  x : κ
  level : Int
  loss : β
deriving Repr

/-- One curve (or one colour of bars): its text in the legend, if it has one, and its points from left to right; `none` is the missing value
pandas fills in. -/
structure Curve (κ β : Type) where
  label : Option (List Char)
  points : List (κ × Option β)
deriving Repr

variable {κ β : Type}

/-- The distinct values in increasing order. -/
def sortUniq {γ : Type} [LinearOrder γ] (l : List γ) : List γ := l.dedup.insertionSort (· ≤ ·)

/-- `vis.py` 39 and 72: the three texts of the legend. -/
def legendTexts : List (List Char) := ["10% Confidence".toList, "50% Confidence".toList, "90% Confidence".toList]

/-- `vis.py` 34-35 and 63-67, `set_index([x, level]).unstack()`: one column per level, one line per value of the axis, both sorted; `ValueError`
if a pair occurs twice. `swaplevel(0,1,1).sort_index(1)` keeps the order, since there is one value column. Plotting an empty table raises
`TypeError`. `ax.legend` gives its texts to the curves in order (39, 72); curves beyond the texts have none. -/
def plotCurves [LinearOrder κ] (rows : List (PlotRow κ β)) : Py (List (Curve κ β)) := do
  if ¬ (rows.map fun r => (r.x, r.level)).Nodup then throw .valueError
  if rows.isEmpty then throw .typeError
  let xs := sortUniq (rows.map PlotRow.x)
  let levels := sortUniq (rows.map PlotRow.level)
  pure (levels.zipIdx.map fun (c, i) =>
    { label := legendTexts[i]?
      points := xs.map fun x => (x, (rows.find? fun r => decide (r.x = x ∧ r.level = c)).map PlotRow.loss) })

/-- `plot_area_results` (`vis.py` 22-43) on the rows of `itmlogic_area`. -/
def plotArea {α : Type} [LinearOrder α] (rows : List (AreaRow α)) : Py (List (Curve α α)) :=
  plotCurves (rows.map fun r => { x := r.distance_km, level := r.confidence, loss := r.loss })

/-- `plot_p2p_results` (`vis.py` 46-76) on the rows of `itmlogic_p2p`: the upper end of the vertical axis (61, 71; the lower one is 0) and the
bars. `max` of an empty column raises `ValueError`. -/
def plotP2P {α : Type} [PyNum α] (rows : List (P2PRow α)) : Py (α × List (Curve Int α)) := do
  let top ← match rows.map P2PRow.loss with
    | [] => throw .valueError
    | l :: ls => pure (ls.foldl (fun m v => if m < v then v else m) l + 50.0)
  let bars ← plotCurves (rows.map fun r => { x := r.reliability, level := r.confidence, loss := r.loss })
  pure (top, bars)

end Itm
