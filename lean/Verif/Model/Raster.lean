import Verif.Model.Programs

/-! The terrain irregularity of a cell: `terrain_area` of `scripts/terrain_module.py`. -/

namespace Itm
variable {α : Type} [PyNum α]

/-- One pixel of the rectangle around the cell. `height = none` where the elevation model has no data, `inside` where the centre of the
pixel lies in the polygon of `geodesic_point_buffer` (`terrain_module.py` 67-97; the polygon itself is left to `pyproj` and `shapely`). -/
structure Pixel (α : Type) where
  height : Option α
  inside : Bool

/-- The number in the array at a pixel: gaps hold the `nodata` value given to `gen_zonal_stats` (`terrain_module.py` 59). -/
def Pixel.raw (x : Pixel α) : α := x.height.getD (-9999.0)

/-- `terrain_module.py` 26-64. `gen_zonal_stats` reads the bounding rectangle of the polygon, masks gaps and pixels outside the polygon, and
calls `interdecile_range` on the masked array. `np.percentile` (line 115) does not look at the mask, so the rectangle is what is measured.
The two libraries are taken as documented. -/
def terrainArea (w : List (Pixel α)) : Py Int := interdecileRange (w.map Pixel.raw)

/-- `area.py` 252-301 from the rectangle on. -/
def areaProgramAt (fmt : α → List Char) (fmtI : Int → List Char) (p : PropSt α) (w : List (Pixel α)) : Py (List Char) :=
  areaProgram fmt fmtI p (w.map Pixel.raw)

end Itm
