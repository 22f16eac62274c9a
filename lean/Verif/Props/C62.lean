import Verif.Model.Scripts
import Verif.Spec.Csv
import Verif.Props.C61

/-! C62: the result files hold the rows. -/

namespace Itm.Props
open Itm Itm.Spec

/-- Behind a complete cell. -/
def afterCell (line : List (List Char)) (cell : List Char) (c : Char) (rest : List Char) : List (List (List Char)) :=
  if c = ',' then readFrom .start [] (line ++ [cell]) rest else (line ++ [cell]) :: readFrom .start [] [] rest

theorem readFrom_end {st : CsvSt} (hst : st ≠ .quoted) {c : Char} (hc : c = ',' ∨ c = '\n') (cell : List Char) (line : List (List Char)) (rest : List Char) :
    readFrom st cell line (c :: rest) = afterCell line cell c rest := by
  unfold afterCell
  rcases hc with rfl | rfl <;> cases st <;> simp_all [readFrom]

theorem readFrom_plain {s : List Char} (hs : s.any (fun c => c == ',' || c == '"' || c == '\n' || c == '\r') = false) {c : Char}
    (hc : c = ',' ∨ c = '\n') (cell : List Char) (line : List (List Char)) (rest : List Char) :
    readFrom .plain cell line (s ++ c :: rest) = afterCell line (cell ++ s) c rest := by
  induction s generalizing cell with
  | nil => rw [List.nil_append, List.append_nil]; exact readFrom_end (by decide) hc ..
  | cons x xs ih =>
    simp only [List.any_cons, Bool.or_eq_false_iff, beq_eq_false_iff_ne] at hs
    obtain ⟨⟨⟨⟨h1, h2⟩, h3⟩, _⟩, hxs⟩ := hs
    rw [List.cons_append]
    have : readFrom .plain cell line (x :: (xs ++ c :: rest)) = readFrom .plain (cell ++ [x]) line (xs ++ c :: rest) := by
      simp [readFrom, h1, h3]
    rw [this, ih hxs, List.append_assoc, List.singleton_append]

theorem readFrom_quoted (s : List Char) {c : Char} (hc : c = ',' ∨ c = '\n') (cell : List Char) (line : List (List Char)) (rest : List Char) :
    readFrom .quoted cell line ((s.flatMap fun c => if c == '"' then ['"', '"'] else [c]) ++ '"' :: c :: rest) = afterCell line (cell ++ s) c rest := by
  induction s generalizing cell with
  | nil =>
    rw [List.flatMap_nil, List.nil_append, List.append_nil]
    rw [show readFrom .quoted cell line ('"' :: c :: rest) = readFrom .closing cell line (c :: rest) by simp [readFrom]]
    exact readFrom_end (by decide) hc ..
  | cons x xs ih =>
    rw [List.flatMap_cons, List.append_assoc]
    by_cases hx : x = '"'
    · subst hx
      rw [if_pos (by decide), List.cons_append, List.cons_append, List.nil_append]
      generalize hw : (xs.flatMap fun c => if c == '"' then ['"', '"'] else [c]) ++ '"' :: c :: rest = w at ih ⊢
      have : readFrom .quoted cell line ('"' :: '"' :: w) = readFrom .quoted (cell ++ ['"']) line w := by simp [readFrom]
      rw [this, ih, List.append_assoc, List.singleton_append]
    · rw [if_neg (by simpa using hx), List.singleton_append]
      generalize hw : (xs.flatMap fun c => if c == '"' then ['"', '"'] else [c]) ++ '"' :: c :: rest = w at ih ⊢
      have : readFrom .quoted cell line (x :: w) = readFrom .quoted (cell ++ [x]) line w := by simp [readFrom, hx]
      rw [this, ih, List.append_assoc, List.singleton_append]

theorem readFrom_cell (s : List Char) {c : Char} (hc : c = ',' ∨ c = '\n') (line : List (List Char)) (rest : List Char) :
    readFrom .start [] line (csvCell s ++ c :: rest) = afterCell line s c rest := by
  unfold csvCell
  cases hs : s.any (fun c => c == ',' || c == '"' || c == '\n' || c == '\r') with
  | true =>
    rw [if_pos rfl, List.cons_append, List.cons_append, List.append_assoc, List.singleton_append]
    generalize hw : (s.flatMap fun c => if c == '"' then ['"', '"'] else [c]) ++ '"' :: c :: rest = w
    have : readFrom .start [] line ('"' :: w) = readFrom .quoted [] line w := by simp [readFrom]
    rw [this, ← hw, readFrom_quoted s hc, List.nil_append]
  | false =>
    rw [if_neg (by simp)]
    cases s with
    | nil => exact readFrom_end (by decide) hc ..
    | cons x xs =>
      have hs' := hs
      simp only [List.any_cons, Bool.or_eq_false_iff, beq_eq_false_iff_ne] at hs
      obtain ⟨⟨⟨⟨h1, h2⟩, h3⟩, _⟩, hxs⟩ := hs
      rw [List.cons_append]
      have : readFrom .start [] line (x :: (xs ++ c :: rest)) = readFrom .plain [x] line (xs ++ c :: rest) := by
        simp [readFrom, h1, h2, h3]
      rw [this, readFrom_plain hxs hc, List.singleton_append]

theorem readFrom_line (cells : List (List Char)) (h : cells ≠ []) (line : List (List Char)) (rest : List Char) :
    readFrom .start [] line (csvLine cells ++ rest) = (line ++ cells) :: readFrom .start [] [] rest := by
  unfold csvLine
  induction cells generalizing line with
  | nil => exact absurd rfl h
  | cons x xs ih =>
    cases xs with
    | nil =>
      rw [List.map_singleton, List.intercalate_singleton, List.append_assoc, List.singleton_append, readFrom_cell x (Or.inr rfl)]
      unfold afterCell
      rw [if_neg (by decide)]
    | cons y ys =>
      have e : List.intercalate [','] ((x :: y :: ys).map csvCell) ++ ['\n'] ++ rest =
          csvCell x ++ ',' :: (List.intercalate [','] ((y :: ys).map csvCell) ++ ['\n'] ++ rest) := by
        rw [List.map_cons, List.map_cons, List.intercalate_cons_cons]
        simp
      rw [e, readFrom_cell x (Or.inl rfl)]
      unfold afterCell
      rw [if_pos rfl, ih (by simp), List.append_assoc, List.singleton_append]

theorem readFrom_lines : ∀ lines : List (List (List Char)), (∀ l ∈ lines, l ≠ []) →
    readFrom .start [] [] (lines.flatMap csvLine) = lines := by
  intro lines
  induction lines with
  | nil => intro _; rw [List.flatMap_nil]; simp [readFrom]
  | cons l ls ih =>
    intro h
    rw [List.flatMap_cons, readFrom_line l (h l (by simp)), List.nil_append, ih fun x hx => h x (by simp [hx])]

theorem csvDictRow_same {K : List (List Char)} (hK : K.Nodup) {row : CsvRow} (hr : row.map Prod.fst = K) :
    csvDictRow K row = .ok (row.map Prod.snd) := by
  unfold csvDictRow
  rw [if_pos]
  · subst hr
    rw [List.map_map]
    congr 1
    refine List.map_congr_left fun e he => ?_
    have : row.find? (fun x => x.1 == e.1) = some e := by
      induction row with
      | nil => simp at he
      | cons x xs ih =>
        rw [List.map_cons, List.nodup_cons] at hK
        rcases List.mem_cons.1 he with rfl | he
        · simp
        · rw [List.find?_cons_of_neg]
          · exact ih hK.2 he
          · intro hx
            rw [beq_iff_eq] at hx
            exact hK.1 (hx ▸ List.mem_map_of_mem he)
    show (Option.map Prod.snd (row.find? (fun x => x.1 == e.1))).getD [] = e.2
    rw [this]; rfl
  · rw [List.all_eq_true]
    intro e he
    rw [List.contains_iff_mem, ← hr]
    exact List.mem_map_of_mem he

/-- **C62** Rows with the same distinct keys are written so that reading the file gives the keys and then the values of the rows, cell by
cell, whatever characters the values consist of. -/
theorem C62_round_trip {data : List CsvRow} {K : List (List Char)} (hne : data ≠ []) (hK : K.Nodup) (hK0 : K ≠ [])
    (hrow : ∀ row ∈ data, row.map Prod.fst = K) :
    ∃ text, csvWriter data = .ok text ∧ readCsv text = K :: data.map (fun row => row.map Prod.snd) := by
  obtain ⟨first, rest, rfl⟩ : ∃ x xs, data = x :: xs := by
    cases data with
    | nil => exact absurd rfl hne
    | cons x xs => exact ⟨x, xs, rfl⟩
  have hf : first.map Prod.fst = K := hrow first (by simp)
  obtain ⟨data, hd⟩ : ∃ d, d = first :: rest := ⟨_, rfl⟩
  rw [← hd] at hrow ⊢
  have hm : data.mapM (csvDictRow K) = .ok (data.map fun row => row.map Prod.snd) := by
    rw [mapM_eq_ok, List.forall₂_map_right_iff, List.forall₂_same]
    exact fun row hr => csvDictRow_same hK (hrow row hr)
  refine ⟨csvLine K ++ (data.map fun row => row.map Prod.snd).flatMap csvLine, ?_, ?_⟩
  · unfold csvWriter
    have : pyGet data 0 = .ok first := by rw [hd]; rfl
    rw [this, ok_bind]
    dsimp only
    rw [hf, hm, ok_bind]
    rfl
  · unfold readCsv
    rw [readFrom_line K hK0, List.nil_append, readFrom_lines]
    intro l hl
    obtain ⟨row, hr, rfl⟩ := List.mem_map.1 hl
    have := hrow row hr
    intro h0
    rw [List.map_eq_nil_iff] at h0
    subst h0
    exact hK0 this.symm

/-- **C62** Without rows there is no file: `data[0]` raises. -/
theorem C62_empty : csvWriter [] = .error .indexError := rfl

section
variable {α : Type}

/-- **C62** The file of a point-to-point report holds its rows: distance, reliability, confidence and loss, in this order. -/
theorem C62_p2p (fmt : α → List Char) (fmtI : Int → List Char) {rows : List (P2PRow α)} (hne : rows ≠ []) :
    ∃ text, csvWriter (rows.map (P2PRow.dict fmt fmtI)) = .ok text ∧
      readCsv text = ["distance_km".toList, "reliability_level_%".toList, "confidence_level_%".toList, "propagation_loss_dB".toList] ::
        rows.map fun row => [fmt row.distance_km, fmtI row.reliability, fmtI row.confidence, fmt row.loss] := by
  obtain ⟨text, h1, h2⟩ := C62_round_trip (data := rows.map (P2PRow.dict fmt fmtI))
    (K := ["distance_km".toList, "reliability_level_%".toList, "confidence_level_%".toList, "propagation_loss_dB".toList])
    (by simpa using hne) (by decide) (by simp) (by
      intro row hr
      obtain ⟨r, _, rfl⟩ := List.mem_map.1 hr
      rfl)
  refine ⟨text, h1, ?_⟩
  rw [h2, List.map_map]
  rfl

/-- **C62** The file of an area report holds its rows: distance, confidence and loss, in this order. -/
theorem C62_area (fmt : α → List Char) (fmtI : Int → List Char) {rows : List (AreaRow α)} (hne : rows ≠ []) :
    ∃ text, csvWriter (rows.map (AreaRow.dict fmt fmtI)) = .ok text ∧
      readCsv text = ["distance_km".toList, "confidence_level_%".toList, "propagation_loss_dB".toList] ::
        rows.map fun row => [fmt row.distance_km, fmtI row.confidence, fmt row.loss] := by
  obtain ⟨text, h1, h2⟩ := C62_round_trip (data := rows.map (AreaRow.dict fmt fmtI))
    (K := ["distance_km".toList, "confidence_level_%".toList, "propagation_loss_dB".toList])
    (by simpa using hne) (by decide) (by simp) (by
      intro row hr
      obtain ⟨r, _, rfl⟩ := List.mem_map.1 hr
      rfl)
  refine ⟨text, h1, ?_⟩
  rw [h2, List.map_map]
  rfl

end

/-- Cells with a comma, a quote and a line break. -/
example : ∃ text, csvWriter [[("a".toList, "x,y".toList), ("b".toList, "1\"\n".toList)]] = .ok text ∧
    readCsv text = [["a".toList, "b".toList], ["x,y".toList, "1\"\n".toList]] :=
  C62_round_trip (by simp) (by decide) (by simp) (by intro row hr; rw [List.mem_singleton] at hr; subst hr; rfl)

/-- The report of the level path, 15 rows. -/
example (fmt : ℝ → List Char) (fmtI : Int → List Char) : ∃ rows msgs r text, itmlogicP2P levelLink [0, 0] = .ok (rows, msgs, r) ∧
    csvWriter (rows.map (P2PRow.dict fmt fmtI)) = .ok text ∧ (readCsv text).length = 16 := by
  obtain ⟨rows, msgs, r, h⟩ := level_run levelLink_path 0 p2pQc p2pQr
  have hl := (C42_shipped h).1
  obtain ⟨text, h1, h2⟩ := C62_p2p fmt fmtI (rows := rows) (by rintro rfl; simp at hl)
  refine ⟨rows, msgs, r, text, h, h1, ?_⟩
  rw [h2, List.length_cons, List.length_map, hl]

end Itm.Props
