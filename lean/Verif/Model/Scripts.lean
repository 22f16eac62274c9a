import Verif.Model.Runners
import Verif.Model.Terrain

/-! The parts of `scripts/` around the calculations: labels and header of the point-to-point report, the terrain path, and the result
table. -/

namespace Itm
variable {α : Type} [PyNum α]

/-! ### The lists of levels in scripts/p2p.py -/

/-- `p2p.py` 219-228 with the labels read as the code reads them: `zc` runs with the index `jc`, the labels are `qr2[jr]` and `qc2[jc]`
of the lists assigned in lines 212 and 215. -/
def p2pInnerL (fs zr : α) (qc2 qr2 : List Int) (jr : Nat) : Nat → List α → PropSt α → Py (List (P2PRow α) × PropSt α)
  | _, [], p => pure ([], p)
  | jc, zc :: rest, p => do
    let (a, p) ← avar zr 0.0 zc p
    let r ← pyGet qr2 jr
    let c ← pyGet qc2 jc
    let row : P2PRow α := { distance_km := p.d, reliability := r, confidence := c, loss := fs + a }
    let (rows, p) ← p2pInnerL fs zr qc2 qr2 jr (jc + 1) rest p
    pure (row :: rows, p)

/-- `p2p.py` 217-228. -/
def p2pRowsL (fs : α) (qc2 qr2 : List Int) (zc : List α) : Nat → List α → PropSt α → Py (List (P2PRow α) × PropSt α)
  | _, [], p => pure ([], p)
  | jr, zr :: rest, p => do
    let (r1, p) ← p2pInnerL fs zr qc2 qr2 jr 0 zc p
    let (r2, p) ← p2pRowsL fs qc2 qr2 zc (jr + 1) rest p
    pure (r1 ++ r2, p)

/-- `scripts/p2p.py` 39-230 with both assignments of the two lists: `qc`, `qr` are those of lines 77 and 80, which the deviates and the
number of turns come from; `qc2`, `qr2` those of lines 212 and 215, which the labels come from. Lines 208-209 print `qc[0]`, `qc[1]`,
`qc[2]`, an `IndexError` with fewer than three confidence levels. -/
def itmlogicP2PFull (qc qr qc2 qr2 : List Int) (p : PropSt α) (profile : List α) :
    Py (List (P2PRow α) × List P2PMsg × PropSt α) := do
  let p ← p2pSetup p profile
  let zr ← qerfi (qr.map percent)
  let zc ← qerfi (qc.map percent)
  let p ← qlrpfl p
  let fs ← freeSpace p.wn p.dist
  let msgs ← p2pReport p
  let _ ← pyGet qc 0
  let _ ← pyGet qc 1
  let _ ← pyGet qc 2
  let (rows, p) ← p2pRowsL fs qc2 qr2 zc 0 zr p
  pure (rows, msgs, p)

/-! ### The terrain path: scripts/p2p.py `straight_line_from_points`, scripts/terrain_module.py `terrain_p2p` -/

/-- `p2p.py` 304-343: the coordinates of the geojson line between two points. -/
def straightLine {β : Type} (a b : β × β) : List (β × β) := [(a.1, a.2), (b.1, b.2)]

/-- `shapely`'s `interpolate(s)` on a straight line of length `len` (`terrain_module.py` 164); on a line of length 0 every position is
the start. Lines of more than two points do not occur (`straightLine`). -/
def lineInterpolate (a b : α × α) (len s : α) : α × α :=
  if pyEq len 0.0 then a else (a.1 + s / len * (b.1 - a.1), a.2 + s / len * (b.2 - a.2))

/-- `float(z)` of a queried elevation; outside the raster `point_query` gives `None`, and `float(None)` raises (`terrain_module.py` 175). -/
def pyFloat {β : Type} : Option β → Py β
  | some z => .ok z
  | none => .error .typeError

/-- `terrain_module.py` 128-181 on the line between `a` and `b`: `distance_m` is the geodesic length of the line, `len` its length in
degrees, `elev` the digital elevation model. Returns the surface profile, the distance in km and the sample points with elevations. -/
def terrainP2P (elev : α × α → Option α) (a b : α × α) (distance_m len : α) :
    Py (List α × α × List ((α × α) × α)) := do
  let n ← determineNumSamples distance_m
  let geoms := (samplePositions n.toNat len).map (lineInterpolate a b len)
  let profile ← geoms.mapM fun g => pyFloat (elev g)
  pure (profile, distance_m / 1000.0, geoms.zip profile)

/-! ### The result table: `csv_writer` (p2p.py 233-258, area.py 224-249) -/

/-- A result dictionary as the ordered list of its entries, values as text. -/
abbrev CsvRow := List (List Char × List Char)

/-- A cell as `csv.DictWriter` writes it with the default dialect: quoted if it holds a comma, a quote or a line break, quotes doubled. -/
def csvCell (s : List Char) : List Char :=
  if s.any (fun c => c == ',' || c == '"' || c == '\n' || c == '\r') then
    '"' :: (s.flatMap fun c => if c == '"' then ['"', '"'] else [c]) ++ ['"']
  else s

/-- One line of the file; `lineterminator='\n'`. A line with one empty cell is written `""` by the `csv` module; lines here have several. -/
def csvLine (cells : List (List Char)) : List Char := List.intercalate [','] (cells.map csvCell) ++ ['\n']

/-- `DictWriter.writerow`: the values in the order of the field names, empty for missing ones; a key that is no field name raises
`ValueError`. -/
def csvDictRow (fields : List (List Char)) (row : CsvRow) : Py (List (List Char)) :=
  if row.all (fun e => fields.contains e.1) then
    .ok (fields.map fun f => ((row.find? (fun e => e.1 == f)).map Prod.snd).getD [])
  else .error .valueError

/-- `csv_writer` (p2p.py 233-258, area.py 224-249): the text written to the file. The field names are the keys of the first row;
`data[0]` raises `IndexError` if there is none. -/
def csvWriter (data : List CsvRow) : Py (List Char) := do
  let first ← pyGet data 0
  let fields := first.map Prod.fst
  let lines ← data.mapM (csvDictRow fields)
  pure (csvLine fields ++ lines.flatMap csvLine)

/-- A row of `itmlogic_p2p` as a dictionary (`p2p.py` 223-228), with `fmt` for `str` of a number. -/
def P2PRow.dict (fmt : α → List Char) (fmtI : Int → List Char) (row : P2PRow α) : CsvRow :=
  [("distance_km".toList, fmt row.distance_km), ("reliability_level_%".toList, fmtI row.reliability),
    ("confidence_level_%".toList, fmtI row.confidence), ("propagation_loss_dB".toList, fmt row.loss)]

/-- A row of `itmlogic_area` as a dictionary (`area.py` 207-211). -/
def AreaRow.dict (fmt : α → List Char) (fmtI : Int → List Char) (row : AreaRow α) : CsvRow :=
  [("distance_km".toList, fmt row.distance_km), ("confidence_level_%".toList, fmtI row.confidence),
    ("propagation_loss_dB".toList, fmt row.loss)]

end Itm
