import Mathlib.Data.Real.Basic
import Verif.Model.Raster

/-! The terrain of a cell. -/

namespace Itm.Spec

/-- The measured heights of the pixels in the cell. -/
def cellHeights (w : List (Pixel ℝ)) : List ℝ := w.filterMap fun x => if x.inside then x.height else none

/-- The pixels that say nothing about the cell: outside of it, or without data. -/
noncomputable def foreign (w : List (Pixel ℝ)) : ℕ := w.countP fun x => !x.inside || x.height.isNone

end Itm.Spec
