import Verif.Model.Scripts
import Verif.Props.C42

/-! C60: the labels of the point-to-point report. -/

namespace Itm.Props
open Itm Itm.Spec

section
variable {α : Type} [PyNum α]

theorem pyGet_nat {β : Type} {l : List β} {i : ℕ} {b : β} : pyGet l (i : Int) = .ok b ↔ l[i]? = some b := by
  unfold pyGet
  simp only [show ¬ ((i : Int) < 0) by omega, if_false, Int.toNat_natCast]
  cases h : l[i]? <;> simp

theorem pyGet_nat_lt {β : Type} {l : List β} {i : ℕ} (h : i < l.length) : pyGet l (i : Int) = .ok l[i] :=
  pyGet_nat.2 (List.getElem?_eq_getElem h)

/-- The inner loop with its own lists as labels is the loop over pairs. -/
theorem p2pInnerL_same (fs zr : α) {qc qr : List Int} {jr : ℕ} {r : Int} (hr : qr[jr]? = some r) :
    ∀ (zc : List α) (jc : ℕ) (p : PropSt α), jc + zc.length = qc.length →
      p2pInnerL fs zr qc qr jr jc zc p = p2pInner fs r zr ((qc.drop jc).zip zc) p := by
  intro zc
  induction zc with
  | nil => intro jc p _; rw [List.zip_nil_right]; rfl
  | cons z zs ih =>
    intro jc p hl
    have hlt : jc < qc.length := by simp only [List.length_cons] at hl; omega
    rw [List.drop_eq_getElem_cons hlt, List.zip_cons_cons]
    unfold p2pInnerL p2pInner
    refine congrArg₂ bind rfl (funext fun x => ?_)
    obtain ⟨a, q⟩ := x
    dsimp only
    rw [pyGet_nat.2 hr, ok_bind, pyGet_nat_lt hlt, ok_bind, ih (jc + 1) q (by simp only [List.length_cons] at hl; omega)]

theorem p2pRowsL_same (fs : α) {qc qr : List Int} {zc : List α} (hc : zc.length = qc.length) :
    ∀ (zr : List α) (jr : ℕ) (p : PropSt α), jr + zr.length = qr.length →
      p2pRowsL fs qc qr zc jr zr p = p2pRows fs (qc.zip zc) ((qr.drop jr).zip zr) p := by
  intro zr
  induction zr with
  | nil => intro jr p _; rw [List.zip_nil_right]; rfl
  | cons z zs ih =>
    intro jr p hl
    have hlt : jr < qr.length := by simp only [List.length_cons] at hl; omega
    rw [List.drop_eq_getElem_cons hlt, List.zip_cons_cons]
    unfold p2pRowsL p2pRows
    rw [p2pInnerL_same fs z (List.getElem?_eq_getElem hlt) zc 0 p (by omega), List.drop_zero]
    refine congrArg₂ bind rfl (funext fun x => ?_)
    obtain ⟨a, q⟩ := x
    dsimp only
    rw [ih (jr + 1) q (by simp only [List.length_cons] at hl; omega)]

theorem qerfi_length {q z : List α} (h : qerfi q = .ok z) : z.length = q.length := by
  unfold qerfi at h
  induction q generalizing z with
  | nil => rw [List.mapM_nil, pure_ok, ok_inj] at h; subst h; rfl
  | cons x xs ih =>
    rw [List.mapM_cons] at h
    obtain ⟨y, _, h⟩ := bind_eq_ok.1 h
    obtain ⟨ys, hys, h⟩ := bind_eq_ok.1 h
    rw [pure_ok, ok_inj] at h
    subst h
    rw [List.length_cons, List.length_cons, ih hys]

/-- **C60** With the same lists in both places and at least three confidence levels, the runner is the one whose rows carry their own
levels (C06, C42, C43). -/
theorem C60_same_lists {qc qr : List Int} (hq : 3 ≤ qc.length) (p : PropSt α) (profile : List α) :
    itmlogicP2PFull qc qr qc qr p profile = itmlogicP2PAt qc qr p profile := by
  unfold itmlogicP2PFull itmlogicP2PAt
  refine congrArg₂ bind rfl (funext fun s => ?_)
  cases hzr : qerfi (qr.map percent : List α) with
  | error e => rfl
  | ok zr =>
  cases hzc : qerfi (qc.map percent : List α) with
  | error e => rfl
  | ok zc =>
  rw [ok_bind, ok_bind, ok_bind, ok_bind]
  refine congrArg₂ bind rfl (funext fun q => ?_)
  refine congrArg₂ bind rfl (funext fun fs => ?_)
  refine congrArg₂ bind rfl (funext fun ms => ?_)
  have e0 := pyGet_nat_lt (l := qc) (i := 0) (by omega)
  have e1 := pyGet_nat_lt (l := qc) (i := 1) (by omega)
  have e2 := pyGet_nat_lt (l := qc) (i := 2) (by omega)
  have hlr := qerfi_length hzr
  have hlc := qerfi_length hzc
  rw [List.length_map] at hlr hlc
  simp only [Nat.cast_zero, Nat.cast_one, Nat.cast_ofNat] at e0 e1 e2
  rw [e0, e1, e2, ok_bind, ok_bind, ok_bind, p2pRowsL_same fs hlc zr 0 q (by omega), List.drop_zero]

/-- Distance and loss of a row, without its labels. -/
def rowValue (row : P2PRow α) : α × α := (row.distance_km, row.loss)

/-- The labels of a row. -/
def rowLabel (row : P2PRow α) : Int × Int := (row.reliability, row.confidence)

theorem p2pInnerL_ok {fs zr : α} {qc2 qr2 : List Int} {jr : ℕ} (r : Int) :
    ∀ (zc : List α) (L : List Int) (jc : ℕ) (p : PropSt α) (rows : List (P2PRow α)) (p' : PropSt α), L.length = zc.length →
      p2pInnerL fs zr qc2 qr2 jr jc zc p = .ok (rows, p') →
      (∃ rows0, p2pInner fs r zr (L.zip zc) p = .ok (rows0, p') ∧ rows.map rowValue = rows0.map rowValue) ∧
      jc + zc.length ≤ max jc qc2.length ∧
      (zc ≠ [] → ∃ r', qr2[jr]? = some r' ∧ rows.map rowLabel = ((qc2.drop jc).take zc.length).map fun c => (r', c)) := by
  intro zc
  induction zc with
  | nil =>
    intro L jc p rows p' _ h
    unfold p2pInnerL at h
    rw [pure_ok, ok_inj, Prod.mk.injEq] at h
    obtain ⟨rfl, rfl⟩ := h
    refine ⟨⟨[], ?_, rfl⟩, by simp, fun h => absurd rfl h⟩
    rw [List.zip_nil_right]; rfl
  | cons z zs ih =>
    intro L jc p rows p' hL h
    obtain ⟨l, L, rfl⟩ : ∃ l L', L = l :: L' := by
      cases L with
      | nil => simp at hL
      | cons l L => exact ⟨l, L, rfl⟩
    unfold p2pInnerL at h
    obtain ⟨⟨a, q⟩, ha, h⟩ := bind_eq_ok.1 h
    dsimp only at h
    obtain ⟨r', hr', h⟩ := bind_eq_ok.1 h
    obtain ⟨c', hc', h⟩ := bind_eq_ok.1 h
    obtain ⟨⟨rows1, q1⟩, h1, h⟩ := bind_eq_ok.1 h
    dsimp only at h
    rw [pure_ok, ok_inj, Prod.mk.injEq] at h
    obtain ⟨rfl, rfl⟩ := h
    obtain ⟨⟨rows0, e1, e2⟩, e3, e4⟩ := ih L (jc + 1) q rows1 q1 (by simpa using hL) h1
    rw [pyGet_nat] at hr' hc'
    obtain ⟨hlt, hce⟩ := List.getElem?_eq_some_iff.1 hc'
    refine ⟨⟨{ distance_km := q.d, reliability := r, confidence := l, loss := fs + a } :: rows0, ?_, ?_⟩, ?_, fun _ => ⟨r', hr', ?_⟩⟩
    · rw [List.zip_cons_cons]
      unfold p2pInner
      rw [ha, ok_bind]
      dsimp only
      rw [e1, ok_bind, pure_ok]
    · rw [List.map_cons, List.map_cons, e2]; rfl
    · simp only [List.length_cons]; omega
    · rw [List.drop_eq_getElem_cons hlt, List.length_cons, List.take_succ_cons, List.map_cons, List.map_cons, hce]
      refine congrArg₂ List.cons rfl ?_
      cases zs with
      | nil =>
        unfold p2pInnerL at h1
        rw [pure_ok, ok_inj, Prod.mk.injEq] at h1
        rw [← h1.1]; simp
      | cons z' zs =>
        obtain ⟨r'', h2, h3⟩ := e4 (by simp)
        rw [hr'] at h2
        obtain rfl := Option.some.inj h2
        exact h3

theorem p2pRowsL_ok {fs : α} {qc2 qr2 : List Int} {zc : List α} {Lc : List Int} (hc : Lc.length = zc.length) (hz : zc ≠ []) :
    ∀ (zr : List α) (L : List Int) (jr : ℕ) (p : PropSt α) (rows : List (P2PRow α)) (p' : PropSt α), L.length = zr.length →
      p2pRowsL fs qc2 qr2 zc jr zr p = .ok (rows, p') →
      (∃ rows0, p2pRows fs (Lc.zip zc) (L.zip zr) p = .ok (rows0, p') ∧ rows.map rowValue = rows0.map rowValue) ∧
      rows.map rowLabel = pairs ((qr2.drop jr).take zr.length) (qc2.take zc.length) ∧
      (zr ≠ [] → jr + zr.length ≤ qr2.length ∧ zc.length ≤ qc2.length) := by
  intro zr
  induction zr with
  | nil =>
    intro L jr p rows p' _ h
    unfold p2pRowsL at h
    rw [pure_ok, ok_inj, Prod.mk.injEq] at h
    obtain ⟨rfl, rfl⟩ := h
    refine ⟨⟨[], ?_, rfl⟩, by simp [pairs], fun h => absurd rfl h⟩
    rw [List.zip_nil_right]; rfl
  | cons z zs ih =>
    intro L jr p rows p' hL h
    obtain ⟨l, L, rfl⟩ : ∃ l L', L = l :: L' := by
      cases L with
      | nil => simp at hL
      | cons l L => exact ⟨l, L, rfl⟩
    unfold p2pRowsL at h
    obtain ⟨⟨r1, q⟩, h1, h⟩ := bind_eq_ok.1 h
    dsimp only at h
    obtain ⟨⟨r2, q2⟩, h2, h⟩ := bind_eq_ok.1 h
    dsimp only at h
    rw [pure_ok, ok_inj, Prod.mk.injEq] at h
    obtain ⟨rfl, rfl⟩ := h
    obtain ⟨⟨s1, a1, a2⟩, a3, a4⟩ := p2pInnerL_ok l zc Lc 0 p r1 q hc h1
    obtain ⟨⟨s2, b1, b2⟩, b3, b4⟩ := ih L (jr + 1) q r2 q2 (by simpa using hL) h2
    obtain ⟨r', hr', a5⟩ := a4 hz
    obtain ⟨hlt, hre⟩ := List.getElem?_eq_some_iff.1 hr'
    have hc1 : 0 < zc.length := List.length_pos_iff.2 hz
    refine ⟨⟨s1 ++ s2, ?_, ?_⟩, ?_, fun _ => ?_⟩
    · rw [List.zip_cons_cons]
      unfold p2pRows
      rw [a1, ok_bind]
      dsimp only
      rw [b1, ok_bind, pure_ok]
    · rw [List.map_append, List.map_append, a2, b2]
    · rw [List.map_append, a5, b3, List.drop_eq_getElem_cons hlt, List.length_cons, List.take_succ_cons, hre, List.drop_zero]
      rfl
    · refine ⟨?_, by omega⟩
      cases zs with
      | nil => simp only [List.length_cons, List.length_nil]; omega
      | cons z' zs =>
        have := (b4 (by simp)).1
        simp only [List.length_cons] at this ⊢
        omega

/-- **C60** What the runner returns if the two pairs of lists differ: the losses of the levels in the first pair (lines 77, 80), labelled
with the levels in the second (lines 212, 215), which must not be shorter. -/
theorem C60_labels {qc qr qc2 qr2 : List Int} {p r : PropSt α} {profile : List α} {rows : List (P2PRow α)} {msgs : List P2PMsg}
    (h : itmlogicP2PFull qc qr qc2 qr2 p profile = .ok (rows, msgs, r)) :
    3 ≤ qc.length ∧ (qr ≠ [] → qr.length ≤ qr2.length ∧ qc.length ≤ qc2.length) ∧
    ∃ rows0, itmlogicP2PAt qc qr p profile = .ok (rows0, msgs, r) ∧
      rows.map (fun row => (row.distance_km, row.loss)) = rows0.map (fun row => (row.distance_km, row.loss)) ∧
      rows0.map (fun row => (row.reliability, row.confidence)) = pairs qr qc ∧
      rows.map (fun row => (row.reliability, row.confidence)) = pairs (qr2.take qr.length) (qc2.take qc.length) := by
  unfold itmlogicP2PFull at h
  obtain ⟨s, hs, h⟩ := bind_eq_ok.1 h
  obtain ⟨zr, hzr, h⟩ := bind_eq_ok.1 h
  obtain ⟨zc, hzc, h⟩ := bind_eq_ok.1 h
  obtain ⟨q, hq, h⟩ := bind_eq_ok.1 h
  obtain ⟨fs, hfs, h⟩ := bind_eq_ok.1 h
  obtain ⟨ms, hms, h⟩ := bind_eq_ok.1 h
  obtain ⟨_, _, h⟩ := bind_eq_ok.1 h
  obtain ⟨_, _, h⟩ := bind_eq_ok.1 h
  obtain ⟨_, h3, h⟩ := bind_eq_ok.1 h
  obtain ⟨⟨rs, r'⟩, hrs, h⟩ := bind_eq_ok.1 h
  dsimp only at h
  rw [pure_ok, ok_inj] at h
  simp only [Prod.mk.injEq] at h
  obtain ⟨rfl, rfl, rfl⟩ := h
  have hlr := qerfi_length hzr
  have hlc := qerfi_length hzc
  rw [List.length_map] at hlr hlc
  have h3' : qc.length ≥ 3 := by
    rw [show (2 : Int) = ((2 : ℕ) : Int) from rfl, pyGet_nat] at h3
    obtain ⟨h, _⟩ := List.getElem?_eq_some_iff.1 h3
    omega
  have hz : zc ≠ [] := by rw [← List.length_pos_iff]; omega
  obtain ⟨⟨rows0, a1, a2⟩, a3, a4⟩ := p2pRowsL_ok (Lc := qc) (by omega) hz zr qr 0 q rs r' (by omega) hrs
  have hat : itmlogicP2PAt qc qr p profile = .ok (rows0, ms, r') := by
    unfold itmlogicP2PAt
    rw [hs, ok_bind, hzr, ok_bind, hzc, ok_bind, hq, ok_bind, hfs, ok_bind, hms, ok_bind, a1, ok_bind]
    rfl
  refine ⟨h3', fun hne => ?_, rows0, hat, a2, ?_, ?_⟩
  · have := a4 (by rw [← List.length_pos_iff, hlr]; exact List.length_pos_iff.2 hne)
    omega
  · obtain ⟨_, _, _, _, _, _, _, _, hf⟩ := C42_rows hat
    exact (rows_levels hf).1
  · rw [List.drop_zero, hlr, hlc] at a3
    exact a3

theorem p2pInnerL_total {fs zr : α} {qc2 qr2 : List Int} {jr : ℕ} {r r' : Int} (hr : qr2[jr]? = some r') :
    ∀ (zc : List α) (L : List Int) (jc : ℕ) (p : PropSt α) (x : List (P2PRow α) × PropSt α), L.length = zc.length →
      jc + zc.length ≤ qc2.length → p2pInner fs r zr (L.zip zc) p = .ok x →
      ∃ rows, p2pInnerL fs zr qc2 qr2 jr jc zc p = .ok (rows, x.2) := by
  intro zc
  induction zc with
  | nil =>
    intro L jc p x _ _ h
    rw [List.zip_nil_right] at h
    unfold p2pInner at h
    rw [pure_ok, ok_inj] at h
    subst h
    exact ⟨[], rfl⟩
  | cons z zs ih =>
    intro L jc p x hL hle h
    obtain ⟨l, L, rfl⟩ : ∃ l L', L = l :: L' := by
      cases L with
      | nil => simp at hL
      | cons l L => exact ⟨l, L, rfl⟩
    rw [List.zip_cons_cons] at h
    unfold p2pInner at h
    obtain ⟨⟨a, q⟩, ha, h⟩ := bind_eq_ok.1 h
    dsimp only at h
    obtain ⟨⟨rows1, q1⟩, h1, h⟩ := bind_eq_ok.1 h
    dsimp only at h
    rw [pure_ok, ok_inj] at h
    subst h
    simp only [List.length_cons] at hle hL
    obtain ⟨rows, e⟩ := ih L (jc + 1) q _ (by omega) (by omega) h1
    refine ⟨{ distance_km := q.d, reliability := r', confidence := qc2[jc]'(by omega), loss := fs + a } :: rows, ?_⟩
    unfold p2pInnerL
    rw [ha, ok_bind]
    dsimp only
    rw [pyGet_nat.2 hr, ok_bind, pyGet_nat_lt (show jc < qc2.length by omega), ok_bind, e, ok_bind]
    rfl

theorem p2pRowsL_total {fs : α} {qc2 qr2 : List Int} {zc : List α} {Lc : List Int} (hc : Lc.length = zc.length)
    (hz : zc.length ≤ qc2.length) :
    ∀ (zr : List α) (L : List Int) (jr : ℕ) (p : PropSt α) (x : List (P2PRow α) × PropSt α), L.length = zr.length →
      jr + zr.length ≤ qr2.length → p2pRows fs (Lc.zip zc) (L.zip zr) p = .ok x →
      ∃ rows, p2pRowsL fs qc2 qr2 zc jr zr p = .ok (rows, x.2) := by
  intro zr
  induction zr with
  | nil =>
    intro L jr p x _ _ h
    rw [List.zip_nil_right] at h
    unfold p2pRows at h
    rw [pure_ok, ok_inj] at h
    subst h
    exact ⟨[], rfl⟩
  | cons z zs ih =>
    intro L jr p x hL hle h
    obtain ⟨l, L, rfl⟩ : ∃ l L', L = l :: L' := by
      cases L with
      | nil => simp at hL
      | cons l L => exact ⟨l, L, rfl⟩
    rw [List.zip_cons_cons] at h
    unfold p2pRows at h
    obtain ⟨⟨r1, q⟩, h1, h⟩ := bind_eq_ok.1 h
    dsimp only at h
    obtain ⟨⟨r2, q2⟩, h2, h⟩ := bind_eq_ok.1 h
    dsimp only at h
    rw [pure_ok, ok_inj] at h
    subst h
    simp only [List.length_cons] at hle hL
    obtain ⟨rows1, e1⟩ := p2pInnerL_total (qc2 := qc2) (List.getElem?_eq_getElem (show jr < qr2.length by omega)) zc Lc 0 p _ hc (by omega) h1
    obtain ⟨rows2, e2⟩ := ih L (jr + 1) q _ (by omega) (by omega) h2
    refine ⟨rows1 ++ rows2, ?_⟩
    unfold p2pRowsL
    rw [e1, ok_bind]
    dsimp only
    rw [e2, ok_bind]
    rfl

/-- **C60** and it does return something whenever the run succeeds and the second pair is not shorter. -/
theorem C60_answers {qc qr qc2 qr2 : List Int} {p r : PropSt α} {profile : List α} {rows0 : List (P2PRow α)} {msgs : List P2PMsg}
    (h3 : 3 ≤ qc.length) (hc : qc.length ≤ qc2.length) (hr : qr.length ≤ qr2.length)
    (h : itmlogicP2PAt qc qr p profile = .ok (rows0, msgs, r)) :
    ∃ rows, itmlogicP2PFull qc qr qc2 qr2 p profile = .ok (rows, msgs, r) := by
  obtain ⟨s, q, fs, zr, zc, hs, hq, hfs, hms, hzr, hzc, hrows⟩ := itmlogicP2PAt_ok h
  have hlr := qerfi_length hzr
  have hlc := qerfi_length hzc
  rw [List.length_map] at hlr hlc
  obtain ⟨rows, e⟩ := p2pRowsL_total (qc2 := qc2) (qr2 := qr2) (zc := zc) (Lc := qc) (by omega) (by omega) zr qr 0 q _ (by omega) (by omega) hrows
  refine ⟨rows, ?_⟩
  have e0 := pyGet_nat_lt (l := qc) (i := 0) (by omega)
  have e1 := pyGet_nat_lt (l := qc) (i := 1) (by omega)
  have e2 := pyGet_nat_lt (l := qc) (i := 2) (by omega)
  simp only [Nat.cast_zero, Nat.cast_one, Nat.cast_ofNat] at e0 e1 e2
  unfold itmlogicP2PFull
  rw [hs, ok_bind, hzr, ok_bind, hzc, ok_bind, hq, ok_bind, hfs, ok_bind, hms, ok_bind, e0, e1, e2, ok_bind, ok_bind, ok_bind, e, ok_bind]
  rfl

/-- **C60** (the header) With fewer than three confidence levels the runner never answers. -/
theorem C60_header {qc : List Int} (hq : qc.length < 3) (qr qc2 qr2 : List Int) (p : PropSt α) (profile : List α) :
    ∃ e, itmlogicP2PFull qc qr qc2 qr2 p profile = .error e := by
  cases h : itmlogicP2PFull qc qr qc2 qr2 p profile with
  | error e => exact ⟨e, rfl⟩
  | ok x =>
    obtain ⟨rows, msgs, r⟩ := x
    have := (C60_labels h).1
    omega

/-- **C60** (refuted) Editing only the first pair of lists mislabels rows: if the reliability levels differ anywhere from those the labels
are read from, some row shows a reliability it was not computed for. -/
theorem C60_refuted {qc qr qc2 qr2 : List Int} {p r : PropSt α} {profile : List α} {rows : List (P2PRow α)} {msgs : List P2PMsg}
    (hd : qr ≠ qr2.take qr.length) (h : itmlogicP2PFull qc qr qc2 qr2 p profile = .ok (rows, msgs, r)) :
    ∃ rows0, itmlogicP2PAt qc qr p profile = .ok (rows0, msgs, r) ∧ rows.length = rows0.length ∧
      ∃ (k : ℕ) (row row0 : P2PRow α), rows[k]? = some row ∧ rows0[k]? = some row0 ∧ row.loss = row0.loss ∧ row.reliability ≠ row0.reliability := by
  obtain ⟨h3, hle, rows0, hat, hv, hl0, hl⟩ := C60_labels h
  have hlen : rows.length = rows0.length := by simpa using congrArg List.length hv
  refine ⟨rows0, hat, hlen, ?_⟩
  by_contra hcon
  push Not at hcon
  apply hd
  have hrel : rows.map (fun row => row.reliability) = rows0.map (fun row => row.reliability) := by
    refine List.ext_getElem (by simpa using hlen) fun k h1 h2 => ?_
    rw [List.getElem_map, List.getElem_map]
    rw [List.length_map] at h1 h2
    refine hcon k _ _ (List.getElem?_eq_getElem h1) (List.getElem?_eq_getElem h2) ?_
    have := congrArg (fun l => l[k]?) hv
    simp only [List.getElem?_map, List.getElem?_eq_getElem h1, List.getElem?_eq_getElem h2, Option.map_some, Option.some.injEq,
      Prod.mk.injEq] at this
    exact this.2
  have e1 := congrArg (List.map Prod.fst) hl
  have e0 := congrArg (List.map Prod.fst) hl0
  rw [List.map_map] at e1 e0
  have e : (pairs qr qc).map Prod.fst = (pairs (qr2.take qr.length) (qc2.take qc.length)).map Prod.fst :=
    e0.symm.trans (hrel.symm.trans e1)
  have hne : qr ≠ [] := by rintro rfl; exact hd (by simp)
  have hL := hle hne
  have fst_pairs : ∀ (A B : List Int) (n : ℕ), B.length = n → (pairs A B).map Prod.fst = A.flatMap fun a => List.replicate n a := by
    intro A B n hB
    unfold pairs
    rw [List.map_flatMap]
    refine congrArg (fun f => A.flatMap f) (funext fun a => ?_)
    rw [List.map_map]
    subst hB
    exact List.map_const' ..
  rw [fst_pairs _ _ qc.length rfl, fst_pairs _ _ qc.length (by rw [List.length_take]; omega)] at e
  have inj : ∀ (A B : List Int) (n : ℕ), 0 < n → A.length = B.length →
      (A.flatMap fun a => List.replicate n a) = (B.flatMap fun a => List.replicate n a) → A = B := by
    intro A
    induction A with
    | nil => intro B n _ hl _; exact (List.length_eq_zero_iff.1 hl.symm).symm
    | cons a A ih =>
      intro B n hn hl he
      obtain ⟨b, B, rfl⟩ : ∃ b B', B = b :: B' := by
        cases B with
        | nil => simp at hl
        | cons b B => exact ⟨b, B, rfl⟩
      rw [List.flatMap_cons, List.flatMap_cons] at he
      obtain ⟨h1, h2⟩ := List.append_inj he (by simp)
      have hab : a = b := by
        obtain ⟨m, rfl⟩ : ∃ m, n = m + 1 := ⟨n - 1, by omega⟩
        rw [List.replicate_succ, List.replicate_succ] at h1
        exact (List.cons.inj h1).1
      rw [hab, ih B n hn (by simpa using hl) h2]
  exact inj _ _ qc.length (by omega) (by rw [List.length_take]; omega) e

end

/-- The shipped lists are read back. -/
example (p : PropSt ℝ) (profile : List ℝ) : itmlogicP2PFull p2pQc p2pQr p2pQc p2pQr p profile = itmlogicP2P p profile :=
  C60_same_lists (by decide) p profile

/-- A report that asks for 5 % instead of 1 % in line 80 only is answered, and some row shows a reliability it was not computed for. -/
example : ∃ rows rows0 msgs r, itmlogicP2PFull p2pQc [5, 10, 50, 90, 99] p2pQc p2pQr levelLink [0, 0] = .ok (rows, msgs, r) ∧
    itmlogicP2PAt p2pQc [5, 10, 50, 90, 99] levelLink [0, 0] = .ok (rows0, msgs, r) ∧
    ∃ (k : ℕ) (row row0 : P2PRow ℝ), rows[k]? = some row ∧ rows0[k]? = some row0 ∧ row.loss = row0.loss ∧
      row.reliability ≠ row0.reliability := by
  obtain ⟨rows0, msgs, r, h⟩ := level_run levelLink_path 0 p2pQc [5, 10, 50, 90, 99]
  obtain ⟨rows, h'⟩ := C60_answers (qc2 := p2pQc) (qr2 := p2pQr) (by decide) (by decide) (by decide) h
  obtain ⟨rows1, e, _, hk⟩ := C60_refuted (by decide) h'
  rw [h, ok_inj, Prod.mk.injEq] at e
  obtain ⟨rfl, _⟩ := e
  exact ⟨rows, rows0, msgs, r, h', h, hk⟩

/-- Two confidence levels: no report. -/
example : ∃ e, itmlogicP2PFull [50, 90] p2pQr [50, 90] p2pQr levelLink [0, 0] = .error e := C60_header (by decide) ..

end Itm.Props
