import Verif.Model.Scripts
import Verif.Model.Terrain

/-! The programs themselves: the `__main__` blocks of the scripts. -/

namespace Itm
variable {α : Type} [PyNum α]

/-- The user dictionary of `area.py` 281-292: heights, frequency, irregularity and polarization; `p` is whatever the other fields of the
model's dictionary hold (in the script they are absent). -/
def areaUser (tip : Int) (p : PropSt α) : PropSt α :=
  { p with hg := ⟨3.3, 1.3⟩, fmhz := 20.0, dh := PyNum.ofInt tip, ipol := 0 }

/-- `area.py` 252-301 (the same in `area_2tiles.py`, with other file names): the text of `area_results.csv`. `cells` are the values
`interdecile_range` is handed by `gen_zonal_stats` (`terrain_module.py` 50-62); cutting them out of the raster is left to `rasterstats`
and `pyproj`. Directories and printing are left out. -/
def areaProgram (fmt : α → List Char) (fmtI : Int → List Char) (p : PropSt α) (cells : List α) : Py (List Char) := do
  let tip ← interdecileRange cells
  let (rows, _) ← itmlogicArea gridDefault ⟨2, 2⟩ (areaUser tip p)
  csvWriter (rows.map (AreaRow.dict fmt fmtI))

/-- The user dictionary of `p2p.py` 356-369. -/
def p2pUser (p : PropSt α) : PropSt α := { p with fmhz := 41.5, d := 77.8, hg := ⟨143.9, 8.5⟩, ipol := 0 }

/-- `original_surface_profile_m`, `p2p.py` 372-384. -/
def docsProfile : List α := ([
  96,  84,  65,  46,  46,  46,  61,  41,  33,  27,  23,  19,  15,  15,  15,
  15,  15,  15,  15,  15,  15,  15,  15,  15,  17,  19,  21,  23,  25,  27,
  29,  35,  46,  41,  35,  30,  33,  35,  37,  40,  35,  30,  51,  62,  76,
  46,  46,  46,  46,  46,  46,  50,  56,  67, 106,  83,  95, 112, 137, 137,
  76, 103, 122, 122,  83,  71,  61,  64,  67,  71,  74,  77,  79,  86,  91,
  83,  76,  68,  63,  76, 107, 107, 107, 119, 127, 133, 135, 137, 142, 148,
  152, 152, 107, 137, 104,  91,  99, 120, 152, 152, 137, 168, 168, 122, 137,
  137, 170, 183, 183, 187, 194, 201, 192, 152, 152, 166, 177, 198, 156, 127,
  116, 107, 104, 101,  98,  95, 103,  91,  97, 102, 107, 107, 107, 103,  98,
  94,  91, 105, 122, 122, 122, 122, 122, 137, 137, 137, 137, 137, 137, 137,
  137, 140, 144, 147, 150, 152, 159] : List Int).map PyNum.ofInt

/-- Confidence and reliability levels of `p2p.py` 77 and 80 (repeated in 212 and 215). -/
def docsQc : List Int := [50, 90, 10]
def docsQr : List Int := [1, 10, 50, 90, 99]

/-- A shapefile: geometry type and field types of the schema, and the records. -/
structure ShapeFile (γ π : Type) where
  geometry : List Char
  fields : List (List Char × Option (List Char))
  records : List (γ × List (List Char × π))

/-- `write_shapefile` (`p2p.py` 261-301): the schema is read off the first feature, `data[0]` raising `IndexError` if there is none;
`types` is `fiona.FIELD_TYPES_MAP`, `typeOf` Python's `type`, `geomType` the geometry type of a feature. What `fiona` does with records
that do not fit the schema is not modelled. -/
def writeShapefile {γ π τ : Type} [DecidableEq τ] (types : List (List Char × τ)) (typeOf : π → τ) (geomType : γ → List Char)
    (data : List (γ × List (List Char × π))) : Py (ShapeFile γ π) := do
  let first ← pyGet data 0
  let fields := first.2.map fun e => (e.1, (types.find? fun t => t.2 = typeOf e.2).map Prod.fst)
  pure { geometry := geomType first.1, fields, records := data }

/-- The Python types of the properties the scripts write. -/
inductive PyType | int | float | str
  deriving DecidableEq

/-- The entries of `fiona.FIELD_TYPES_MAP` for these types. -/
def fieldTypes : List (List Char × PyType) := [("int".toList, .int), ("float".toList, .float), ("str".toList, .str)]

/-- What a run of `p2p.py` leaves behind: the distance it prints (line 416), the three shapefiles and the text of `p2p_results.csv`. -/
structure P2POut (α : Type) where
  km : α
  transmitter : ShapeFile (α × α) (List Char)
  receiver : ShapeFile (α × α) (List Char)
  points : ShapeFile (α × α) α
  table : List Char

/-- A feature list with one named site (`p2p.py` 387-408, 431-437) and its shapefile. -/
def siteFile (a : α × α) (name : List Char) : Py (ShapeFile (α × α) (List Char)) :=
  writeShapefile fieldTypes (fun _ => .str) (fun _ => "Point".toList) [(a, [("id".toList, name)])]

/-- `p2p.py` 344-444. The terrain is measured along the line between the sites `a` and `b`, but the prediction is run on
`original_surface_profile_m` and on the distance 77.8 km. Files appear in the order of the script, so an exception leaves the earlier
ones; this is not modelled, nor are paths and coordinate systems. -/
def p2pProgram (fmt : α → List Char) (fmtI : Int → List Char) (p : PropSt α) (elev : α × α → Option α) (a b : α × α)
    (distance_m len : α) : Py (P2POut α) := do
  let line := straightLine a b
  let (_, km, points) ← terrainP2P elev (← pyGet line 0) (← pyGet line 1) distance_m len
  let (rows, _, _) ← itmlogicP2PFull docsQc docsQr docsQc docsQr (p2pUser p) docsProfile
  let transmitter ← siteFile a "Crystal Palace radio transmitter".toList
  let receiver ← siteFile b "Mursley".toList
  let points ← writeShapefile fieldTypes (fun _ => .float) (fun _ => "Point".toList)
    (points.map fun x => (x.1, [("elevation".toList, x.2)]))
  let table ← csvWriter (rows.map (P2PRow.dict fmt fmtI))
  pure { km, transmitter, receiver, points, table }

/-- `p2p_2tiles.py` 342-441: the printed profile ends (414-418), the distance, the points file with a fixed schema (422-434) and the text
of `p2p_results_2tiles.csv`. Profile and distance of the prediction are those of `p2p.py` (361, 370-382). -/
def p2p2TilesProgram (fmt : α → List Char) (fmtI : Int → List Char) (p : PropSt α) (elev : α × α → Option α) (a b : α × α)
    (distance_m len : α) : Py ((α × α) × α × ShapeFile (α × α) α × List Char) := do
  let line := straightLine a b
  let (profile, km, points) ← terrainP2P elev (← pyGet line 0) (← pyGet line 1) distance_m len
  let first ← pyGet profile 0
  let last ← pyGet profile (-1)
  let shp := { geometry := "Point".toList, fields := [("elevation".toList, some "float".toList)],
               records := points.map fun x => (x.1, [("elevation".toList, x.2)]) }
  let (rows, _, _) ← itmlogicP2PFull docsQc docsQr docsQc docsQr (p2pUser p) docsProfile
  let table ← csvWriter (rows.map (P2PRow.dict fmt fmtI))
  pure ((first, last), km, shp, table)

end Itm
