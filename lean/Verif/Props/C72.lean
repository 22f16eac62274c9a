import Verif.Model.Programs
import Verif.Props.C59
import Verif.Props.C60
import Verif.Props.C61
import Verif.Props.C62
import Verif.Props.C73

/-! C72: what the point-to-point programs write. -/

namespace Itm.Props
open Itm Itm.Spec

/-- The columns of the point-to-point result file. -/
def p2pColumns : List (List Char) :=
  ["distance_km".toList, "reliability_level_%".toList, "confidence_level_%".toList, "propagation_loss_dB".toList]

section
variable {α : Type} [PyNum α]

/-- The part of the two programs that does not look at the sites. -/
def docsTable (fmt : α → List Char) (fmtI : Int → List Char) (p : PropSt α) : Py (List Char) := do
  let (rows, _, _) ← itmlogicP2PFull docsQc docsQr docsQc docsQr (p2pUser p) docsProfile
  csvWriter (rows.map (P2PRow.dict fmt fmtI))

theorem line_start (a b : α × α) : pyGet (straightLine a b) 0 = .ok a := rfl

theorem line_end (a b : α × α) : pyGet (straightLine a b) 1 = .ok b := rfl

theorem siteFile_ok (a : α × α) (name : List Char) :
    siteFile a name = .ok { geometry := "Point".toList, fields := [("id".toList, some "str".toList)], records := [(a, [("id".toList, name)])] } := rfl

/-- `write_shapefile` of sample points. -/
theorem pointsFile_ok {pts : List ((α × α) × α)} (h : pts ≠ []) :
    writeShapefile fieldTypes (fun _ => PyType.float) (fun _ => "Point".toList) (pts.map fun x => (x.1, [("elevation".toList, x.2)])) =
      .ok { geometry := "Point".toList, fields := [("elevation".toList, some "float".toList)],
            records := pts.map fun x => (x.1, [("elevation".toList, x.2)]) } := by
  cases pts with
  | nil => exact absurd rfl h
  | cons x xs => rfl

end

/-- **C72** (no points, no file) `write_shapefile` reads the schema off its first feature and raises without one. -/
theorem C72_empty {γ π τ : Type} [DecidableEq τ] (types : List (List Char × τ)) (typeOf : π → τ) (geomType : γ → List Char) :
    writeShapefile types typeOf geomType [] = .error .indexError := rfl

/-- The measured points, as `terrain_p2p` returns them. -/
theorem terrain_points {elev : ℝ × ℝ → Option ℝ} {a b : ℝ × ℝ} {D len km : ℝ} {profile : List ℝ} {pts : List ((ℝ × ℝ) × ℝ)}
    (hD : 0 ≤ D) (hl : 0 < len) (h : terrainP2P elev a b D len = .ok (profile, km, pts)) :
    ∃ n : ℕ, 2 ≤ n ∧ n ≤ 600 ∧ determineNumSamples D = .ok (n : ℤ) ∧ km = D / 1000 ∧ profile.length = n ∧
      (∀ k < n, elev (between a b (k / n)) = some (profile.getD k 0)) ∧
      pts = (List.range n).map fun k : ℕ => (between a b (k / n), (elev (between a b (k / n))).getD 0) := by
  obtain ⟨n, h2, h6, hn, -, H⟩ := C61_samples (elev := elev) (a := a) (b := b) hD hl
  obtain ⟨hkm, hlen, hsnd, hfst, hz⟩ := H h
  refine ⟨n, h2, h6, hn, hkm, hlen, hz, ?_⟩
  have hpl : pts.length = n := by rw [← hlen, ← hsnd, List.length_map]
  refine List.ext_getElem (by rw [hpl, List.length_map, List.length_range]) fun k h1 h2' => ?_
  have hk : k < n := by omega
  have e1 : pts[k].1 = between a b (k / n) := by
    have := congrArg (fun l : List (ℝ × ℝ) => l[k]?) hfst
    simp only [List.getElem?_map, List.getElem?_range hk, List.getElem?_eq_getElem h1, Option.map_some] at this
    exact Option.some.inj this
  have e2 : pts[k].2 = profile.getD k 0 := by
    rw [← hsnd, List.getD_eq_getElem?_getD, List.getElem?_map, List.getElem?_eq_getElem h1]; rfl
  rw [List.getElem_map, List.getElem_range]
  refine Prod.ext e1 ?_
  dsimp only
  rw [e2, hz k hk]; rfl

theorem programs_table (fmt : ℝ → List Char) (fmtI : Int → List Char) (p : PropSt ℝ) (elev : ℝ × ℝ → Option ℝ) (a b : ℝ × ℝ) {D len : ℝ}
    (hD : 0 ≤ D) (hl : 0 < len) :
    ∃ n : ℕ, determineNumSamples D = .ok (n : ℤ) ∧
      ((∀ k < n, (elev (between a b (k / n))).isSome) →
        (p2pProgram fmt fmtI p elev a b D len).map P2POut.table = docsTable fmt fmtI p ∧
        (p2p2TilesProgram fmt fmtI p elev a b D len).map (fun out => out.2.2.2) = docsTable fmt fmtI p) ∧
      ((∃ k < n, elev (between a b (k / n)) = none) →
        p2pProgram fmt fmtI p elev a b D len = .error .typeError ∧
        p2p2TilesProgram fmt fmtI p elev a b D len = .error .typeError) := by
  obtain ⟨n, h2, h6, hn, hiff, H⟩ := C61_samples (elev := elev) (a := a) (b := b) hD hl
  refine ⟨n, hn, fun hc => ?_, fun hc => ?_⟩
  · obtain ⟨⟨profile, km, pts⟩, hx⟩ := hiff.2 hc
    obtain ⟨m, m2, -, hm, -, hlen, -, hpts⟩ := terrain_points hD hl hx
    have hne : pts ≠ [] := by
      rw [hpts]
      intro e
      have := congrArg List.length e
      rw [List.length_map, List.length_range, List.length_nil] at this
      omega
    constructor
    · unfold p2pProgram docsTable
      dsimp only
      rw [line_start, ok_bind, line_end, ok_bind]
      rw [hx, ok_bind]
      dsimp only
      cases itmlogicP2PFull docsQc docsQr docsQc docsQr (p2pUser p) docsProfile with
      | error e => rfl
      | ok x =>
        obtain ⟨rows, msgs, r⟩ := x
        rw [ok_bind, ok_bind, siteFile_ok, ok_bind, siteFile_ok, ok_bind]
        dsimp only
        rw [pointsFile_ok hne, ok_bind]
        cases csvWriter (rows.map (P2PRow.dict fmt fmtI)) <;> rfl
    · unfold p2p2TilesProgram docsTable
      dsimp only
      rw [line_start, ok_bind, line_end, ok_bind]
      rw [hx, ok_bind]
      dsimp only
      rw [pyGet_nonneg (by omega) (by omega), ok_bind, pyGet_neg (by omega) (by omega), ok_bind]
      cases itmlogicP2PFull docsQc docsQr docsQc docsQr (p2pUser p) docsProfile with
      | error e => rfl
      | ok x =>
        obtain ⟨rows, msgs, r⟩ := x
        rw [ok_bind, ok_bind]
        dsimp only
        cases csvWriter (rows.map (P2PRow.dict fmt fmtI)) <;> rfl
  · have ht : terrainP2P elev a b D len = .error .typeError := by
      obtain ⟨k, hk, hk'⟩ := hc
      have hno : ¬ ∃ x, terrainP2P elev a b D len = .ok x := by
        rw [hiff]
        intro hs
        have := hs k hk
        rw [hk'] at this
        exact absurd this (by simp)
      unfold terrainP2P at hno ⊢
      rw [hn, ok_bind] at hno ⊢
      dsimp only at hno ⊢
      cases hg : ((samplePositions (n : ℤ).toNat len).map (lineInterpolate a b len)).mapM (fun g => pyFloat (elev g)) with
      | ok pr => rw [hg] at hno; exact absurd ⟨_, rfl⟩ hno
      | error e =>
        rw [show e = PyErr.typeError from ?_]; · rfl
        generalize (samplePositions (n : ℤ).toNat len).map (lineInterpolate a b len) = gs at hg
        clear hno
        induction gs with
        | nil => rw [List.mapM_nil] at hg; cases hg
        | cons g gs ih =>
          rw [List.mapM_cons] at hg
          cases hz : elev g with
          | none =>
            rw [hz] at hg
            cases hg; rfl
          | some z =>
            rw [hz, show pyFloat (some z) = .ok z from rfl, ok_bind] at hg
            cases hgs : gs.mapM (fun g => pyFloat (elev g)) with
            | ok l => rw [hgs, ok_bind, pure_ok] at hg; cases hg
            | error e' =>
              rw [hgs] at hg
              cases hg
              exact ih hgs
    constructor
    · unfold p2pProgram
      dsimp only
      rw [line_start, ok_bind, line_end, ok_bind, ht]; rfl
    · unfold p2p2TilesProgram
      dsimp only
      rw [line_start, ok_bind, line_end, ok_bind, ht]; rfl

/-- **C72** (one table for all sites) What stands in the result file does not depend on the elevation model nor on the sites, and is
the same for the two programs: there is one outcome `T` of the prediction, and every run of either program whose sample points are all
covered by the elevation model ends with `T`; if a sample point is not covered, it ends with a `TypeError`. -/
theorem C72_table (fmt : ℝ → List Char) (fmtI : Int → List Char) (p : PropSt ℝ) :
    ∃ T : Py (List Char), ∀ (elev : ℝ × ℝ → Option ℝ) (a b : ℝ × ℝ) (D len : ℝ), 0 ≤ D → 0 < len →
      ∃ n : ℕ, determineNumSamples D = .ok (n : ℤ) ∧
        ((∀ k < n, (elev (between a b (k / n))).isSome) →
          (p2pProgram fmt fmtI p elev a b D len).map P2POut.table = T ∧
          (p2p2TilesProgram fmt fmtI p elev a b D len).map (fun out => out.2.2.2) = T) ∧
        ((∃ k < n, elev (between a b (k / n)) = none) →
          p2pProgram fmt fmtI p elev a b D len = .error .typeError ∧
          p2p2TilesProgram fmt fmtI p elev a b D len = .error .typeError) :=
  ⟨docsTable fmt fmtI p, fun elev a b _ _ hD hl => programs_table fmt fmtI p elev a b hD hl⟩

/-- **C72** (the points) The files of sites and points hold what was measured: each site at its place under its name; between 2 and 600 points at the fractions `k / n` of the
straight line between the sites, in order, each with the elevation at this point, as points with a floating-point field. -/
theorem C72_points {fmt : ℝ → List Char} {fmtI : Int → List Char} {p : PropSt ℝ} {elev : ℝ × ℝ → Option ℝ} {a b : ℝ × ℝ} {D len : ℝ}
    {out : P2POut ℝ} (hD : 0 ≤ D) (hl : 0 < len) (h : p2pProgram fmt fmtI p elev a b D len = .ok out) :
    out.km = D / 1000 ∧
    out.transmitter.geometry = "Point".toList ∧ out.transmitter.fields = [("id".toList, some "str".toList)] ∧
    out.transmitter.records = [(a, [("id".toList, "Crystal Palace radio transmitter".toList)])] ∧
    out.receiver.geometry = "Point".toList ∧ out.receiver.fields = [("id".toList, some "str".toList)] ∧
    out.receiver.records = [(b, [("id".toList, "Mursley".toList)])] ∧
    out.points.geometry = "Point".toList ∧ out.points.fields = [("elevation".toList, some "float".toList)] ∧
    ∃ n : ℕ, 2 ≤ n ∧ n ≤ 600 ∧ determineNumSamples D = .ok (n : ℤ) ∧ (∀ k < n, (elev (between a b (k / n))).isSome) ∧
      out.points.records = (List.range n).map fun k : ℕ =>
        (between a b (k / n), [("elevation".toList, (elev (between a b (k / n))).getD 0)]) := by
  unfold p2pProgram at h
  dsimp only at h
  rw [line_start, ok_bind, line_end, ok_bind] at h
  obtain ⟨⟨profile, km, pts⟩, hx, h⟩ := bind_eq_ok.1 h
  obtain ⟨n, h2, h6, hn, hkm, hlen, hz, hpts⟩ := terrain_points hD hl hx
  have hne : pts ≠ [] := by
    rw [hpts]
    intro e
    have := congrArg List.length e
    rw [List.length_map, List.length_range, List.length_nil] at this
    omega
  dsimp only at h
  obtain ⟨⟨rows, msgs, r⟩, hr, h⟩ := bind_eq_ok.1 h
  rw [siteFile_ok, ok_bind, siteFile_ok, ok_bind] at h
  dsimp only at h
  rw [pointsFile_ok hne, ok_bind] at h
  obtain ⟨text, ht, h⟩ := bind_eq_ok.1 h
  rw [pure_ok, ok_inj] at h
  subst h
  refine ⟨hkm, rfl, rfl, rfl, rfl, rfl, rfl, rfl, rfl, n, h2, h6, hn, fun k hk => by rw [hz k hk]; rfl, ?_⟩
  dsimp only
  rw [hpts, List.map_map]; rfl

/-- The table both programs write. -/
theorem docsTable_ok (fmt : ℝ → List Char) (fmtI : Int → List Char) (p : PropSt ℝ) :
    ∃ (text : List Char) (rows : List (P2PRow ℝ)), docsTable fmt fmtI p = .ok text ∧
      readCsv text = p2pColumns :: rows.map (fun row => [fmt row.distance_km, fmtI row.reliability, fmtI row.confidence, fmt row.loss]) ∧
      rows.map (fun row => (row.reliability, row.confidence)) = shippedPairs ∧
      ∃ G z, docsPath.IsGeometry (docsPath.z docsPath.n) G ∧ IsImpedance 15 0.005 (waveNumber 41.5) false z ∧
        ∀ row ∈ rows, row.distance_km = 77.8 ∧ ∃ zr zc, DeviateOf row.reliability zr ∧ DeviateOf row.confidence zc ∧
          row.loss = (docsPath.link G (waveNumber 41.5) 314 z).loss 5 1 true false 77800 zr 0 zc := by
  obtain ⟨rows, msgs, r, h, G, z, hG, hz, H⟩ := C73_answered docsQc docsQr p
  have hp : itmlogicP2P (p2pUser p) docsProfile = .ok (rows, msgs, r) := h
  obtain ⟨h15, hlv, -⟩ := C42_shipped hp
  have hne : rows ≠ [] := by intro e; rw [e] at h15; cases h15
  obtain ⟨text, ht, hread⟩ := C62_p2p fmt fmtI hne
  refine ⟨text, rows, ?_, hread, hlv, G, z, hG, hz, H⟩
  unfold docsTable
  rw [C60_same_lists (by decide), h, ok_bind]
  exact ht

/-- **C72** (the file) Whenever the elevation model covers the sample points, both programs write one and the same file: a header and 15
lines, for five reliability levels with three confidence levels each, in this order. Every line carries the distance 77.8 km and the
published loss of the documented path for its levels.
Full statement: the measured distance and the loss over the measured terrain; false, see `C72_table` and `C72_distance_refuted`. -/
theorem C72_file_partial (fmt : ℝ → List Char) (fmtI : Int → List Char) (p : PropSt ℝ) :
    ∃ (text : List Char) (rows : List (P2PRow ℝ)),
      readCsv text = p2pColumns :: rows.map (fun row => [fmt row.distance_km, fmtI row.reliability, fmtI row.confidence, fmt row.loss]) ∧
      rows.map (fun row => (row.reliability, row.confidence)) = shippedPairs ∧
      (∃ G z, docsPath.IsGeometry (docsPath.z docsPath.n) G ∧ IsImpedance 15 0.005 (waveNumber 41.5) false z ∧
        ∀ row ∈ rows, row.distance_km = 77.8 ∧ ∃ zr zc, DeviateOf row.reliability zr ∧ DeviateOf row.confidence zc ∧
          row.loss = (docsPath.link G (waveNumber 41.5) 314 z).loss 5 1 true false 77800 zr 0 zc) ∧
      ∀ (elev : ℝ × ℝ → Option ℝ) (a b : ℝ × ℝ) (D len : ℝ), 0 ≤ D → 0 < len →
        (∀ n : ℕ, determineNumSamples D = .ok (n : ℤ) → ∀ k < n, (elev (between a b (k / n))).isSome) →
        (∃ out, p2pProgram fmt fmtI p elev a b D len = .ok out ∧ out.table = text) ∧
        (∃ out, p2p2TilesProgram fmt fmtI p elev a b D len = .ok out ∧ out.2.2.2 = text) := by
  obtain ⟨text, rows, hT, h1, h2, h3⟩ := docsTable_ok fmt fmtI p
  refine ⟨text, rows, h1, h2, h3, fun elev a b D len hD hl hc => ?_⟩
  obtain ⟨n, hn, h, -⟩ := programs_table fmt fmtI p elev a b hD hl
  obtain ⟨e1, e2⟩ := h (hc n hn)
  rw [hT] at e1 e2
  exact ⟨map_ok.1 e1, map_ok.1 e2⟩

/-- **C72** (refuted: the distance) Only at 77.8 km do the lines carry the distance that was measured and printed. The sites of
`p2p_2tiles.py` are some 102 km apart. -/
theorem C72_distance_refuted {fmt : ℝ → List Char} {fmtI : Int → List Char} {p : PropSt ℝ} {elev : ℝ × ℝ → Option ℝ} {a b : ℝ × ℝ} {D len : ℝ}
    {out : P2POut ℝ} (hD : 0 ≤ D) (hl : 0 < len) (hne : D ≠ 77800) (h : p2pProgram fmt fmtI p elev a b D len = .ok out) :
    ∃ rows : List (P2PRow ℝ), rows.length = 15 ∧
      readCsv out.table = p2pColumns :: rows.map (fun row => [fmt row.distance_km, fmtI row.reliability, fmtI row.confidence, fmt row.loss]) ∧
      ∀ row ∈ rows, row.distance_km ≠ out.km := by
  obtain ⟨text, rows, hT, h1, h2, G, z, -, -, H⟩ := docsTable_ok fmt fmtI p
  obtain ⟨hkm, -, -, -, -, -, -, -, -, n, -, -, hn, hc, -⟩ := C72_points hD hl h
  obtain ⟨m, hm, e, -⟩ := programs_table fmt fmtI p elev a b hD hl
  rw [hn, ok_inj] at hm
  have hm : n = m := by exact_mod_cast hm
  subst hm
  have e1 := (e hc).1
  rw [h, hT] at e1
  have e1 : out.table = text := by cases e1; rfl
  refine ⟨rows, ?_, by rw [e1]; exact h1, fun row hrow e2 => hne ?_⟩
  · have := congrArg List.length h2
    rw [List.length_map] at this
    exact this
  · rw [(H row hrow).1, hkm] at e2
    norm_num at e2
    linarith

/-- **C72** (two tiles) `p2p_2tiles.py` writes the same points; as ends of the profile it prints the elevation at the transmitter and at the
last sample, which falls short of the receiver by one part in `n`. -/
theorem C72_tiles {fmt : ℝ → List Char} {fmtI : Int → List Char} {p : PropSt ℝ} {elev : ℝ × ℝ → Option ℝ} {a b : ℝ × ℝ} {D len : ℝ}
    {first last km : ℝ} {shp : ShapeFile (ℝ × ℝ) ℝ} {text : List Char} (hD : 0 ≤ D) (hl : 0 < len)
    (h : p2p2TilesProgram fmt fmtI p elev a b D len = .ok ((first, last), km, shp, text)) :
    km = D / 1000 ∧ ∃ n : ℕ, 2 ≤ n ∧ n ≤ 600 ∧ determineNumSamples D = .ok (n : ℤ) ∧
      elev a = some first ∧ elev (between a b ((n - 1) / n)) = some last ∧
      shp.records = (List.range n).map fun k : ℕ =>
        (between a b (k / n), [("elevation".toList, (elev (between a b (k / n))).getD 0)]) := by
  unfold p2p2TilesProgram at h
  dsimp only at h
  rw [line_start, ok_bind, line_end, ok_bind] at h
  obtain ⟨⟨profile, km', pts⟩, hx, h⟩ := bind_eq_ok.1 h
  obtain ⟨n, h2, h6, hn, hkm, hlen, hz, hpts⟩ := terrain_points hD hl hx
  dsimp only at h
  rw [pyGet_nonneg (by omega) (by omega), ok_bind, pyGet_neg (by omega) (by omega), ok_bind] at h
  obtain ⟨⟨rows, msgs, r⟩, hr, h⟩ := bind_eq_ok.1 h
  obtain ⟨text', ht, h⟩ := bind_eq_ok.1 h
  rw [pure_ok, ok_inj] at h
  cases h
  refine ⟨hkm, n, h2, h6, hn, ?_, ?_, ?_⟩
  · have := hz 0 (by omega)
    rw [show between a b ((0 : ℕ) / n) = a by unfold between; simp] at this
    rw [this, List.getD_eq_getElem?_getD, List.getElem?_eq_getElem (by omega)]; rfl
  · have := hz (n - 1) (by omega)
    rw [Nat.cast_sub (by omega), Nat.cast_one] at this
    have e : (-1 + (profile.length : ℤ)).toNat = n - 1 := by omega
    rw [this, List.getD_eq_getElem?_getD, List.getElem?_eq_getElem (by omega)]
    simp only [e, Option.getD_some]
  · dsimp only
    rw [hpts, List.map_map]; rfl

/-- Flat ground at 100 m everywhere: the programs of `C72_file_partial` run, and 102 km is not 77.8 km. -/
example (fmt : ℝ → List Char) (fmtI : Int → List Char) (p : PropSt ℝ) : ∃ out,
    p2pProgram fmt fmtI p (fun _ => some 100) (26.676, -3.513) (27.594, -3.514) 102000 0.918 = .ok out := by
  obtain ⟨_, _, -, -, -, H⟩ := C72_file_partial fmt fmtI p
  obtain ⟨⟨out, h, -⟩, -⟩ := H (fun _ => some 100) (26.676, -3.513) (27.594, -3.514) 102000 0.918 (by norm_num) (by norm_num)
    (fun _ _ _ _ => rfl)
  exact ⟨out, h⟩

end Itm.Props
