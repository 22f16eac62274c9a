import Verif.Lemmas.P2PTotal
import Verif.Props.C09

/-! C42, C43, C44: reports of the point-to-point runner. -/

namespace Itm.Props
open Itm Itm.Spec

section
variable {α : Type} [PyNum α]

/-- **C42** For any requested levels there is one row per pair, reliability major. Each row carries the requested distance, and its
loss is the free-space loss plus the quantile for its own two levels on the dictionary `qlrpfl` left; the dictionary is the same for
all rows. -/
theorem C42_rows {qc qr : List Int} {p r : PropSt α} {profile : List α} {rows : List (P2PRow α)} {msgs : List P2PMsg}
    (h : itmlogicP2PAt qc qr p profile = .ok (rows, msgs, r)) :
    ∃ s q l, p2pSetup p profile = .ok s ∧ qlrpfl s = .ok q ∧ q.mdvar = some 11 ∧ q.klim = some 5 ∧
      npLog (2.0 * (p.fmhz / 47.7) * q.dist) = .ok l ∧
      List.Forall₂ (fun x row => P2PRowFor q p.d (8.685890 * l) x.1 x.2 row) (pairs qr qc) rows := by
  obtain ⟨s, q, fs, zr, zc, hs, hq, hfs, _, hzr, hzc, hr⟩ := itmlogicP2PAt_ok h
  have P := p2pPrep_ok hs hq
  unfold freeSpace at hfs
  obtain ⟨l, hl, hfs⟩ := bind_eq_ok.1 hfs
  rw [pure_ok, ok_inj] at hfs
  subst hfs
  rw [P.wn] at hl
  have := p2pRows_for P.inv hzr hzc hr
  rw [P.d] at this
  exact ⟨s, q, l, hs, hq, P.mdvar, P.klim, hl, this⟩

/-- The request pairs of the shipped runner. -/
def shippedPairs : List (Int × Int) :=
  [(1, 50), (1, 90), (1, 10), (10, 50), (10, 90), (10, 10), (50, 50), (50, 90), (50, 10), (90, 50), (90, 90), (90, 10),
    (99, 50), (99, 90), (99, 10)]

theorem rows_levels {q : PropSt α} {d fs : α} {X : List (Int × Int)} {rows : List (P2PRow α)}
    (h : List.Forall₂ (fun x row => P2PRowFor q d fs x.1 x.2 row) X rows) :
    rows.map (fun row => (row.reliability, row.confidence)) = X ∧ ∀ row ∈ rows, row.distance_km = d := by
  induction h with
  | nil => exact ⟨rfl, by simp⟩
  | cons hd _ ih =>
    refine ⟨?_, ?_⟩
    · rw [List.map_cons, ih.1, hd.2.1, hd.2.2.1]
    · intro row hrow
      rcases List.mem_cons.1 hrow with rfl | hrow
      · exact hd.1
      · exact ih.2 row hrow

/-- **C42** The shipped runner reports 15 rows, in this order, each with the requested distance. -/
theorem C42_shipped {p r : PropSt α} {profile : List α} {rows : List (P2PRow α)} {msgs : List P2PMsg}
    (h : itmlogicP2P p profile = .ok (rows, msgs, r)) :
    rows.length = 15 ∧ rows.map (fun row => (row.reliability, row.confidence)) = shippedPairs ∧ ∀ row ∈ rows, row.distance_km = p.d := by
  obtain ⟨_, _, _, _, _, _, _, _, hf⟩ := C42_rows h
  have hl := rows_levels hf
  have e : pairs p2pQr p2pQc = shippedPairs := by decide
  rw [e] at hl hf
  exact ⟨hf.length_eq.symm, hl⟩

/-- **C42** A row does not depend on which other levels are requested, nor on the order. -/
theorem C42_independent {qc qr qc' qr' : List Int} {p r r' : PropSt α} {profile : List α} {rows rows' : List (P2PRow α)}
    {msgs msgs' : List P2PMsg} (h : itmlogicP2PAt qc qr p profile = .ok (rows, msgs, r))
    (h' : itmlogicP2PAt qc' qr' p profile = .ok (rows', msgs', r')) :
    msgs = msgs' ∧ ∀ row ∈ rows, ∀ row' ∈ rows', row.reliability = row'.reliability → row.confidence = row'.confidence → row = row' := by
  obtain ⟨s, q, fs, zr, zc, hs, hq, hfs, hm, hzr, hzc, hr⟩ := itmlogicP2PAt_ok h
  obtain ⟨s', q', fs', zr', zc', hs', hq', hfs', hm', hzr', hzc', hr'⟩ := itmlogicP2PAt_ok h'
  rw [hs, ok_inj] at hs'
  subst hs'
  rw [hq, ok_inj] at hq'
  subst hq'
  rw [hfs, ok_inj] at hfs'
  subst hfs'
  rw [hm, ok_inj] at hm'
  have P := p2pPrep_ok hs hq
  have f := p2pRows_for P.inv hzr hzc hr
  have f' := p2pRows_for P.inv hzr' hzc' hr'
  refine ⟨hm', ?_⟩
  intro row hrow row' hrow' e1 e2
  have g : ∀ {X : List (Int × Int)} {L : List (P2PRow α)}, List.Forall₂ (fun x row => P2PRowFor q q.d fs x.1 x.2 row) X L →
      ∀ row ∈ L, P2PRowFor q q.d fs row.reliability row.confidence row := by
    intro X L hf
    induction hf with
    | nil => simp
    | cons hd _ ih =>
      intro row hrow
      rcases List.mem_cons.1 hrow with rfl | hrow
      · rw [hd.2.1, hd.2.2.1]; exact hd
      · exact ih row hrow
  obtain ⟨a1, -, -, z1, z2, a, w, d1, d2, ha, a4⟩ := g f row hrow
  obtain ⟨b1, -, -, y1, y2, b, w', d1', d2', hb, b4⟩ := g f' row' hrow'
  have one : ∀ {x : Int} {u v : α}, DeviateOf x u → DeviateOf x v → u = v := by
    intro x u v hu hv
    unfold DeviateOf at hu hv
    rw [hu, ok_inj] at hv
    exact (List.cons.inj hv).1
  rw [← e1] at d1'
  rw [← e2] at d2'
  rw [one d1 d1', one d2 d2', hb, ok_inj] at ha
  obtain ⟨rfl, -⟩ := Prod.mk.inj ha
  cases row; cases row'
  simp only at *
  simp [*]

end

/-- A level path of 100 km, 20 m antennas, 954 MHz; everything else in the dictionary is left over from another link. -/
noncomputable def levelLink : PropSt ℝ := { smooth with fmhz := 954, d := 100, ipol := 0, hg := ⟨20, 20⟩ }

theorem levelLink_path : LevelPath levelLink 20 := by
  constructor <;> norm_num [levelLink]

/-- Another leftover, same link. -/
noncomputable def levelLink' : PropSt ℝ := { skew with fmhz := 954, d := 100, ipol := 0, hg := ⟨20, 20⟩, lvar := 3, kwx := 4, aref := some 77, mdp := -1 }

theorem levelLink'_path : LevelPath levelLink' 20 := by
  constructor <;> norm_num [levelLink']

/-- The hypotheses of C42 are met: the level path is answered. -/
example : ∃ rows msgs r, itmlogicP2P levelLink [0, 0] = .ok (rows, msgs, r) ∧ rows.length = 15 := by
  obtain ⟨rows, msgs, r, h⟩ := level_run levelLink_path 0 p2pQc p2pQr
  exact ⟨rows, msgs, r, h, (C42_shipped h).1⟩

/-! ### C43 -/

theorem rowFor_le {q : PropSt ℝ} (hi : CacheInv q) (hmd : q.mdvar = some 11) {d fs : ℝ} {r c r' c' : Int} {row row' : P2PRow ℝ}
    (h : P2PRowFor q d fs r c row) (h' : P2PRowFor q d fs r' c' row') (hr : r ≤ r') (hc : c ≤ c') : row.loss ≤ row'.loss := by
  obtain ⟨-, -, -, zr, zc, a, w, d1, d2, ha, e⟩ := h
  obtain ⟨-, -, -, zr', zc', a', w', d1', d2', ha', e'⟩ := h'
  have anti : ∀ {x y : Int} {u v : ℝ}, x ≤ y → DeviateOf x u → DeviateOf y v → v ≤ u := by
    intro x y u v hxy hu hv
    refine C05_qerfi_antitone _ _ _ _ ?_ hu hv
    rw [rofInt, rofInt]
    have : (x : ℝ) ≤ y := by exact_mod_cast hxy
    gcongr
  have z1 := anti hr d1 d1'
  have z2 := anti hc d2 d2'
  obtain ⟨zd, v, ar, md, hmd', g, -, rfl, rfl⟩ := avar_pair hi ha ha'
  rw [hmd, Option.some.injEq] at hmd'
  subst hmd'
  rw [e, e']
  have e1 : (decodeMode 11).1.kdv = 1 := by decide
  rw [e1]
  have m1 := devR_mono_zc g 1 zr 0.0 z2
  have m2 := devR_mono_zt g (kdv := 1) (by decide) 0.0 zc' z1
  dsimp only at m1 m2
  have := softR_mono (show ar - v.vmd - devR 1 zd v zr 0.0 zc ≤ ar - v.vmd - devR 1 zd v zr' 0.0 zc' by linarith)
  linarith

/-- **C43** Across reports of the same link with different requested levels. -/
theorem C43_across {qc qr qc' qr' : List Int} {p r r' : PropSt ℝ} {profile : List ℝ} {rows rows' : List (P2PRow ℝ)} {msgs msgs' : List P2PMsg}
    (h : itmlogicP2PAt qc qr p profile = .ok (rows, msgs, r)) (h' : itmlogicP2PAt qc' qr' p profile = .ok (rows', msgs', r')) :
    ∀ row ∈ rows, ∀ row' ∈ rows', row.reliability ≤ row'.reliability → row.confidence ≤ row'.confidence → row.loss ≤ row'.loss := by
  obtain ⟨s, q, fs, zr, zc, hs, hq, hfs, hm, hzr, hzc, hr⟩ := itmlogicP2PAt_ok h
  obtain ⟨s', q', fs', zr', zc', hs', hq', hfs', hm', hzr', hzc', hr'⟩ := itmlogicP2PAt_ok h'
  rw [hs, ok_inj] at hs'
  subst hs'
  rw [hq, ok_inj] at hq'
  subst hq'
  rw [hfs, ok_inj] at hfs'
  subst hfs'
  have P := p2pPrep_ok hs hq
  have f := p2pRows_for P.inv hzr hzc hr
  have f' := p2pRows_for P.inv hzr' hzc' hr'
  have g : ∀ {X : List (Int × Int)} {L : List (P2PRow ℝ)}, List.Forall₂ (fun x row => P2PRowFor q q.d fs x.1 x.2 row) X L →
      ∀ row ∈ L, P2PRowFor q q.d fs row.reliability row.confidence row := by
    intro X L hf
    induction hf with
    | nil => simp
    | cons hd _ ih =>
      intro row hrow
      rcases List.mem_cons.1 hrow with rfl | hrow
      · rw [hd.2.1, hd.2.2.1]; exact hd
      · exact ih row hrow
  intro row hrow row' hrow' e1 e2
  exact rowFor_le P.inv P.mdvar (g f row hrow) (g f' row' hrow') e1 e2

/-- **C43** In one report (any requested levels), a row asking for at least as much reliability and at least as much confidence never
shows less loss. -/
theorem C43_ordered {qc qr : List Int} {p r : PropSt ℝ} {profile : List ℝ} {rows : List (P2PRow ℝ)} {msgs : List P2PMsg}
    (h : itmlogicP2PAt qc qr p profile = .ok (rows, msgs, r)) :
    ∀ row ∈ rows, ∀ row' ∈ rows, row.reliability ≤ row'.reliability → row.confidence ≤ row'.confidence → row.loss ≤ row'.loss :=
  C43_across h h

/-- The shipped report of the level path: the first row (1 %, 50 %) is never above the eleventh (90 %, 90 %). -/
example : ∃ rows msgs r, itmlogicP2P levelLink [0, 0] = .ok (rows, msgs, r) ∧
    ∃ row ∈ rows, ∃ row' ∈ rows, row.reliability = 1 ∧ row.confidence = 50 ∧ row'.reliability = 90 ∧ row'.confidence = 90 ∧ row.loss ≤ row'.loss := by
  obtain ⟨rows, msgs, r, h⟩ := level_run levelLink_path 0 p2pQc p2pQr
  obtain ⟨_, hl, _⟩ := C42_shipped h
  have m1 : ((1 : Int), (50 : Int)) ∈ rows.map (fun row => (row.reliability, row.confidence)) := by rw [hl]; decide
  have m2 : ((90 : Int), (90 : Int)) ∈ rows.map (fun row => (row.reliability, row.confidence)) := by rw [hl]; decide
  obtain ⟨row, hrow, e⟩ := List.mem_map.1 m1
  obtain ⟨row', hrow', e'⟩ := List.mem_map.1 m2
  simp only [Prod.mk.injEq] at e e'
  exact ⟨rows, msgs, r, h, row, hrow, row', hrow', e.1, e.2, e'.1, e'.2, C43_ordered h row hrow row' hrow' (by omega) (by omega)⟩

/-! ### C44 -/

section
variable {α : Type} [PyNum α]

/-- **C44** Rows, messages and exception of a run depend on frequency, distance, antenna heights, polarization and the profile only
(over any arithmetic whose comparison is total, so without NaN). -/
theorem C44_no_leak (ho : Ordered α) (qc qr : List Int) {p p' : PropSt α} (profile : List α) (hf : p.fmhz = p'.fmhz) (hd : p.d = p'.d)
    (hg : p.hg = p'.hg) (hi : p.ipol = p'.ipol) :
    (itmlogicP2PAt qc qr p profile).map (fun x => (x.1, x.2.1)) = (itmlogicP2PAt qc qr p' profile).map (fun x => (x.1, x.2.1)) :=
  (p2p_rel ho qc qr profile hf hd hg hi).map_eq fun _ _ h => Prod.ext h.1 h.2

/-- **C44** Rerunning on the dictionary an earlier run has left returns the same rows and messages. -/
theorem C44_rerun (ho : Ordered α) {qc qr : List Int} {p r : PropSt α} {profile : List α} {rows : List (P2PRow α)} {msgs : List P2PMsg}
    (h : itmlogicP2PAt qc qr p profile = .ok (rows, msgs, r)) : ∃ r', itmlogicP2PAt qc qr r profile = .ok (rows, msgs, r') := by
  obtain ⟨h1, h2, h3, h4⟩ := p2p_keeps h
  have := C44_no_leak ho qc qr (p := p) (p' := r) profile h1.symm h2.symm h3.symm h4.symm
  rw [h] at this
  cases hr : itmlogicP2PAt qc qr r profile with
  | error e => rw [hr] at this; cases this
  | ok x =>
    rw [hr] at this
    simp only [Except.map, ok_inj, Prod.mk.injEq] at this
    obtain ⟨x1, x2, x3⟩ := x
    exact ⟨x3, by rw [this.1, this.2]⟩

end

/-- The reals are ordered; two different leftovers give the same answer, which exists. -/
example : Ordered ℝ ∧ levelLink ≠ levelLink' ∧ ∃ rows msgs r r', itmlogicP2P levelLink [0, 0] = .ok (rows, msgs, r) ∧
    itmlogicP2P levelLink' [0, 0] = .ok (rows, msgs, r') := by
  refine ⟨ordered_real, ?_, ?_⟩
  · intro h
    have := congrArg PropSt.kwx h
    simp [levelLink, levelLink', smooth, blank] at this
  · obtain ⟨rows, msgs, r, h⟩ := level_run levelLink_path 0 p2pQc p2pQr
    obtain ⟨rows', msgs', r', h'⟩ := level_run levelLink'_path 0 p2pQc p2pQr
    have := C44_no_leak ordered_real p2pQc p2pQr (p := levelLink) (p' := levelLink') [0, 0] rfl rfl rfl rfl
    rw [h, h'] at this
    simp only [Except.map, ok_inj, Prod.mk.injEq] at this
    obtain ⟨rfl, rfl⟩ := this
    exact ⟨rows, msgs, r, r', h, h'⟩

end Itm.Props
