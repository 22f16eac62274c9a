import Verif.Lemmas.TwoPoint
import Verif.Props.C45

/-! C06, C52: from requested percentages to deviates; the measurement-campaign runner. -/

namespace Itm.Props
open Itm Itm.Spec

/-- **C06** A request of 50 % is the deviate 0. -/
theorem C06_fifty (z : ℝ) : DeviateOf 50 z ↔ z = 0 := by
  unfold DeviateOf
  have e : (PyNum.ofInt 50 / 100.0 : ℝ) = 0.5 := by rw [rofInt]; norm_num
  rw [e, C05_qerfi_half, ok_inj]
  constructor
  · intro h; simpa using h.symm
  · rintro rfl; rfl

section
variable {α : Type} [PyNum α]

/-- **C06** (point-to-point) Every row is the quantile at the deviates of its own two percentages, divided by 100.
Full statement: this holds for every runner; false for `pimter.py`, see `C06_refuted`. -/
theorem C06_p2p_partial {qc qr : List Int} {p r : PropSt α} {profile : List α} {rows : List (P2PRow α)} {msgs : List P2PMsg}
    (h : itmlogicP2PAt qc qr p profile = .ok (rows, msgs, r)) :
    ∀ row ∈ rows, row.reliability ∈ qr ∧ row.confidence ∈ qc ∧ ∃ q fs, P2PRowFor q p.d fs row.reliability row.confidence row := by
  obtain ⟨s, q, l, -, -, -, -, -, hf⟩ := C42_rows h
  have hm : ∀ x ∈ pairs qr qc, x.1 ∈ qr ∧ x.2 ∈ qc := by
    intro x hx
    unfold pairs at hx
    obtain ⟨a, ha, hx⟩ := List.mem_flatMap.1 hx
    obtain ⟨b, hb, rfl⟩ := List.mem_map.1 hx
    exact ⟨ha, hb⟩
  clear h
  generalize pairs qr qc = X at *
  induction hf with
  | nil => simp
  | @cons x row X rows hd _ ih =>
    intro row' hrow
    rcases List.mem_cons.1 hrow with rfl | hrow
    · rw [hd.2.1, hd.2.2.1]
      exact ⟨(hm x (by simp)).1, (hm x (by simp)).2, q, _, hd⟩
    · exact ih (fun x hx => hm x (by simp [hx])) row' hrow

theorem loopRow_for {wn zt zl : α} {qt ql : Int} {L : List (Int × α)} {qc : List Int} (hzc : List.Forall₂ (fun x (y : Int × α) => y.1 = x ∧ DeviateOf x y.2) qc L)
    (ht : DeviateOf qt zt) (hl : DeviateOf ql zl) {ds : List α} {rows : List (AreaRow α)}
    (h : List.Forall₂ (LoopRow wn zt zl) (ds.flatMap fun d => L.map fun c => (d, c)) rows) :
    ∀ row ∈ rows, row.confidence ∈ qc ∧ ∃ q fs, q.dist = row.distance_km * 1000.0 ∧ freeSpace q.wn q.dist = .ok fs ∧
      AreaRowFor q row.distance_km fs qt ql row.confidence row := by
  have hm : ∀ x ∈ (ds.flatMap fun d => L.map fun c => (d, c)), x.2.1 ∈ qc ∧ DeviateOf x.2.1 x.2.2 := by
    intro x hx
    obtain ⟨a, ha, hx'⟩ := List.mem_flatMap.1 hx
    obtain ⟨b, hb, rfl⟩ := List.mem_map.1 hx'
    clear h hx hx'
    dsimp only
    induction hzc with
    | nil => simp at hb
    | cons hd _ ih =>
      rcases List.mem_cons.1 hb with rfl | hb
      · rw [hd.1]; exact ⟨by simp, hd.2⟩
      · exact ⟨List.mem_cons_of_mem _ (ih hb).1, (ih hb).2⟩
  generalize (ds.flatMap fun d => L.map fun c => (d, c)) = X at *
  induction h with
  | nil => simp
  | @cons x row X rows hd _ ih =>
    intro row' hrow
    rcases List.mem_cons.1 hrow with rfl | hrow
    · obtain ⟨h1, h2⟩ := hm x (by simp)
      obtain ⟨q, fs, a, hi, e1, e2, e3, e4, e5, e6, e7⟩ := hd
      obtain ⟨q', hq'⟩ := ans_avar hi e6
      refine ⟨by rw [e5]; exact h1, q, fs, by rw [e1, e4], by rw [e2, e1]; exact e3, rfl, rfl, zt, zl, x.2.2, a, q', ht, hl, by rw [e5]; exact h2, hq', e7⟩
    · exact ih (fun x hx => hm x (by simp [hx])) row' hrow

/-- **C06** (area) Every row is the quantile at the deviates of the requested percentages of time and location and of its own
confidence, divided by 100, at its own distance.
Full statement: this holds for every runner; false for `pimter.py`, see `C06_refuted`. -/
theorem C06_area_partial {qt ql : Int} {qc : List Int} {g : Grid α} {kst : Pair Int} {p r : PropSt α} {rows : List (AreaRow α)}
    (h : itmlogicAreaAt qt ql qc g kst p = .ok (rows, r)) :
    ∀ row ∈ rows, row.confidence ∈ qc ∧ ∃ q fs, q.dist = row.distance_km * 1000.0 ∧ freeSpace q.wn q.dist = .ok fs ∧
      AreaRowFor q row.distance_km fs qt ql row.confidence row := by
  obtain ⟨zt, zl, zc, s, q, dt, ht, hl', hzc, hs, hq, -, hl⟩ := itmlogicAreaAt_ok h
  rw [areaSetup_eq] at hs
  obtain ⟨z, -, hs⟩ := bind_eq_ok.1 hs
  rw [pure_ok, ok_inj] at hs
  rw [qlra_eq] at hq
  obtain ⟨⟨x, y, w⟩, -, hq⟩ := bind_eq_ok.1 hq
  dsimp only at hq
  rw [pure_ok, ok_inj, prepMarks_eq] at hq
  have hf := areaLoop_ok (cacheInv_of_five (by rw [← hq, ← hs]; simp)) (by rw [← hq]; simp) hl
  exact loopRow_for (zip_deviates hzc) ht hl' hf

end

/-! ### the campaign runner -/

theorem pimterAt_ok {α : Type} [PyNum α] {qr qc : Int} {terrain surface distance : List α} {p : PropSt α} {rows : List (PimterRow α)}
    (h : runItmlogicPimterAt qr qc terrain surface distance p = .ok rows) :
    ∃ s zr zc, pimterSetup p terrain distance = .ok s ∧ qerfi [PyNum.ofInt qr] = .ok [zr] ∧ qerfi [PyNum.ofInt qc] = .ok [zc] ∧
      pimterLoop qr zr zc ((List.range 121).map fun (i : Nat) => PyNum.ofInt (10 + (i : Int))) s = .ok rows := by
  unfold runItmlogicPimterAt at h
  obtain ⟨zr, h1, h⟩ := bind_eq_ok.1 h
  obtain ⟨zc, h2, h⟩ := bind_eq_ok.1 h
  obtain ⟨s, h3, h⟩ := bind_eq_ok.1 h
  obtain ⟨zr0, h4, h⟩ := bind_eq_ok.1 h
  obtain ⟨zc0, h5, h⟩ := bind_eq_ok.1 h
  have one : ∀ (x : α) (z : List α) (z0 : α), qerfi [x] = .ok z → pyGet z 0 = .ok z0 → qerfi [x] = .ok [z0] := by
    intro x z z0 e1 e2
    have e3 := (C04_qerfi_entries _ _).1 e1
    cases e3 with
    | cons a b =>
      cases b
      have : z0 = _ := (ok_inj.1 e2).symm
      rw [this]
      exact a
  exact ⟨s, zr0, zc0, h3, one _ _ _ h1 h4, one _ _ _ h2 h5, h⟩

theorem pimterTurn_ok {α : Type} [PyNum α] {qr : Int} {zr zc h : α} {p r : PropSt α} {row : PimterRow α}
    (ht : pimterTurn qr zr zc h p = .ok (row, r)) :
    ∃ q fs a q', CacheInv q ∧ q.mdvar = some 11 ∧ PimterRel p q ∧ freeSpace q.wn q.dist = .ok fs ∧ avar zr 0.0 zc q = .ok (a, q') ∧
      row = { fmhz := p.fmhz, hg := h, reliability := qr, loss := fs + a } := by
  unfold pimterTurn at ht
  obtain ⟨s, hs, ht⟩ := bind_eq_ok.1 ht
  obtain ⟨fs, hfs, ht⟩ := bind_eq_ok.1 ht
  obtain ⟨⟨a, r⟩, ha, ht⟩ := bind_eq_ok.1 ht
  dsimp only at ht
  rw [pure_ok, ok_inj] at ht
  obtain ⟨rfl, rfl⟩ := Prod.mk.inj ht
  obtain ⟨hi, hm, hp⟩ := pimter_prep hs
  refine ⟨s, fs, a, r, hi, hm, hp, hfs, ha, ?_⟩
  obtain ⟨_, _, hf, _⟩ := avar_key hi ha
  obtain ⟨_, _, _, _, _, _, _, _, rfl⟩ := hf
  rw [hp.fmhz]

theorem softR_slope {x y : ℝ} (h : x ≤ y) : softR x + (y - x) / 10 ≤ softR y := by
  have key : Monotone fun a => softR a - a / 10 := by
    intro a b hab
    unfold softR
    dsimp only
    have f : ∀ a : ℝ, a < 0 → a * (29 - a) / (29 - 10 * a) - a / 10 = 261 / 10 * (a / (29 - 10 * a)) := by
      intro a ha
      have h0 : 29 - 10 * a ≠ 0 := by linarith
      rw [← mul_div_assoc, div_sub_div _ _ h0 (by norm_num), div_eq_div_iff (by positivity) h0]
      ring
    by_cases h1 : a < 0
    · rw [if_pos h1, f a h1]
      have na : a / (29 - 10 * a) ≤ 0 := div_nonpos_of_nonpos_of_nonneg h1.le (by linarith)
      by_cases h2 : b < 0
      · rw [if_pos h2, f b h2]
        have : a / (29 - 10 * a) ≤ b / (29 - 10 * b) := by
          rw [div_le_div_iff₀ (by linarith) (by linarith)]
          linarith
        linarith
      · rw [if_neg h2]
        linarith
    · rw [if_neg h1, if_neg (by linarith)]
      linarith
  have := key h
  dsimp only at this
  linarith

/-- **C06** (refuted) `pimter.py` hands the percentages themselves to `qerfi`. Whatever levels are requested (1 % or more), every row is
the quantile at the lower end of the deviate scale, about -4.75 standard deviations, for both reliability and confidence; and its loss
exceeds the loss at the requested 50 %/50 % by at least 2.35 dB. -/
theorem C06_refuted : ∃ U : ℝ, 4.7 < U ∧ U < 4.8 ∧
    ∀ {qr qc : Int} {terrain surface distance : List ℝ} {p : PropSt ℝ} {rows : List (PimterRow ℝ)}, 1 ≤ qr → 1 ≤ qc →
      runItmlogicPimterAt qr qc terrain surface distance p = .ok rows → ∀ row ∈ rows,
        ∃ q fs a q', freeSpace q.wn q.dist = .ok fs ∧ avar (-U) 0 (-U) q = .ok (a, q') ∧ row.loss = fs + a ∧
          ∀ z a' q'', DeviateOf 50 z → avar z 0 z q = .ok (a', q'') → a' + 2.35 ≤ a := by
  obtain ⟨U, u1, u2, -, hU, -⟩ := C05_qerfi_saturates
  refine ⟨U, u1, u2, ?_⟩
  intro qr qc terrain surface distance p rows hr hc h row hrow
  obtain ⟨s, zr, zc, -, h1, h2, h3⟩ := pimterAt_ok h
  have hz : ∀ (x : Int) (z : ℝ), 1 ≤ x → qerfi [(PyNum.ofInt x : ℝ)] = .ok [z] → z = -U := by
    intro x z hx e
    have hx' : (1:ℝ) ≤ x := by exact_mod_cast hx
    rw [hU _ (by rw [rofInt]; norm_num; linarith), ok_inj] at e
    simpa using e.symm
  have e1 := hz _ _ hr h1
  have e2 := hz _ _ hc h2
  subst e1; subst e2
  have hf := pimterLoop_ok ordered_real (.refl s) h3
  obtain ⟨x, -, r, ht⟩ : ∃ x ∈ ((List.range 121).map fun (i : Nat) => (PyNum.ofInt (10 + (i : Int)) : ℝ)), ∃ q, pimterTurn qr (-U) (-U) x s = .ok (row, q) := by
    generalize ((List.range 121).map fun (i : Nat) => (PyNum.ofInt (10 + (i : Int)) : ℝ)) = X at hf
    clear h h3
    induction hf with
    | nil => simp at hrow
    | cons hd _ ih =>
      rcases List.mem_cons.1 hrow with rfl | hrow
      · exact ⟨_, by simp, hd⟩
      · obtain ⟨x, hx, q⟩ := ih hrow
        exact ⟨x, by simp [hx], q⟩
  obtain ⟨q, fs, a, q', hi, hm, -, hfs, ha, rfl⟩ := pimterTurn_ok ht
  rw [zero_lit] at ha
  refine ⟨q, fs, a, q', hfs, ha, rfl, ?_⟩
  intro z a' q'' hz0 ha'
  rw [C06_fifty] at hz0
  subst hz0
  obtain ⟨c, m, g, x, v, ar, k, md, hf1, har, hk, hmd, hm1, hcg, hw, hx, g1, g2, hvc, hvg, ea⟩ := avar_real hi ha
  obtain ⟨c', m', g', x', v', ar', k', md', hf', har', hk', hmd', hm', _, _, _, _, _, _, _, ea'⟩ := avar_real hi ha'
  rw [hf1, ok_inj] at hf'
  simp only [Prod.mk.injEq] at hf'
  obtain ⟨rfl, rfl, rfl, rfl, rfl⟩ := hf'
  rw [har] at har'
  obtain rfl : ar = ar' := by simpa using har'
  rw [hm, Option.some.injEq] at hmd
  subst hmd
  have hws : m.ws = false := by rw [hm1]; decide
  have hkd : m.kdv = 1 := by rw [hm1]; decide
  have hvs := (varCoef_good hcg g1 g2 hvc).2.2.2.2.2.2 hws
  rw [hkd] at ea ea'
  have d0 : devR 1 c.zd v 0 0 0 = 0 := by
    unfold devR tdev
    simp
  have dU : devR 1 c.zd v (-U) 0 (-U) ≤ -23.5 := by
    unfold devR
    rw [if_neg (by decide), if_pos rfl]
    have t1 : tdev c.zd v (-U) ≤ 0 := by
      unfold tdev sgtR
      rw [if_pos (by norm_num at u1; linarith)]
      have := hvg.sgtm
      norm_num at u1
      nlinarith
    have r5 : 5 ≤ Real.sqrt (v.sgl ^ 2 + vsR v (tdev c.zd v (-U)) (v.sgl * -U) (-U)) := by
      apply Real.le_sqrt_of_sq_le
      unfold vsR
      have : 0 ≤ tdev c.zd v (-U) ^ 2 / (7.8 + (-U) ^ 2) := by positivity
      have : 0 ≤ (v.sgl * -U) ^ 2 / (24 + (-U) ^ 2) := by positivity
      nlinarith [sq_nonneg v.sgl]
    generalize Real.sqrt (v.sgl ^ 2 + vsR v (tdev c.zd v (-U)) (v.sgl * -U) (-U)) = R at r5 ⊢
    norm_num at u1 ⊢
    nlinarith
  have sl := softR_slope (x := ar - v.vmd - devR 1 c.zd v 0 0 0) (y := ar - v.vmd - devR 1 c.zd v (-U) 0 (-U)) (by rw [d0]; norm_num at dU ⊢; linarith)
  rw [← ea, ← ea'] at sl
  rw [d0] at sl
  norm_num at dU sl ⊢
  linarith

/-- **C06** (refuted) The losses `pimter.py` reports do not depend on the requested levels at all. -/
theorem C06_blind_refuted {qr qc qr' qc' : Int} {terrain surface distance : List ℝ} {p : PropSt ℝ} {rows rows' : List (PimterRow ℝ)}
    (hr : 1 ≤ qr) (hc : 1 ≤ qc) (hr' : 1 ≤ qr') (hc' : 1 ≤ qc') (h : runItmlogicPimterAt qr qc terrain surface distance p = .ok rows)
    (h' : runItmlogicPimterAt qr' qc' terrain surface distance p = .ok rows') :
    rows.map PimterRow.loss = rows'.map PimterRow.loss := by
  obtain ⟨U, -, -, -, hU, -⟩ := C05_qerfi_saturates
  have hz : ∀ (x : Int) (z : ℝ), 1 ≤ x → qerfi [(PyNum.ofInt x : ℝ)] = .ok [z] → z = -U := by
    intro x z hx e
    have hx' : (1:ℝ) ≤ x := by exact_mod_cast hx
    rw [hU _ (by rw [rofInt]; norm_num; linarith), ok_inj] at e
    simpa using e.symm
  obtain ⟨s, zr, zc, hs, h1, h2, h3⟩ := pimterAt_ok h
  obtain ⟨s', zr', zc', hs', h1', h2', h3'⟩ := pimterAt_ok h'
  rw [hs, ok_inj] at hs'
  subst hs'
  rw [hz _ _ hr h1, hz _ _ hc h2] at h3
  rw [hz _ _ hr' h1', hz _ _ hc' h2'] at h3'
  have f := pimterLoop_ok ordered_real (.refl s) h3
  have f' := pimterLoop_ok ordered_real (.refl s) h3'
  generalize ((List.range 121).map fun (i : Nat) => (PyNum.ofInt (10 + (i : Int)) : ℝ)) = X at f f'
  clear h h' h3 h3'
  induction f generalizing rows' with
  | nil => cases f'; rfl
  | cons hd _ ih =>
    cases f' with
    | cons hd' tl' =>
      rw [List.map_cons, List.map_cons, ih tl']
      congr 1
      obtain ⟨r, hd⟩ := hd
      obtain ⟨r', hd'⟩ := hd'
      unfold pimterTurn at hd hd'
      obtain ⟨q, hq, hd⟩ := bind_eq_ok.1 hd
      rw [hq, ok_bind] at hd'
      obtain ⟨fs, hfs, hd⟩ := bind_eq_ok.1 hd
      rw [hfs, ok_bind] at hd'
      obtain ⟨⟨a, q1⟩, ha, hd⟩ := bind_eq_ok.1 hd
      rw [ha, ok_bind] at hd'
      dsimp only at hd hd'
      rw [pure_ok, ok_inj] at hd hd'
      rw [← (Prod.mk.inj hd).1, ← (Prod.mk.inj hd').1]

/-- The campaign runner does answer, e.g. on a level profile of 200 km, and the deviates of p2p are what they should be. -/
example : (∃ rows, runItmlogicPimter [0, 0] [0, 0] [0, 200000] smooth = .ok rows) ∧
    (∃ rows msgs r, itmlogicP2P levelLink [0, 0] = .ok (rows, msgs, r)) ∧ (∃ rows r, itmlogicArea gridDefault ⟨2, 2⟩ areaLink = .ok (rows, r)) ∧ DeviateOf 50 (0:ℝ) :=
  ⟨pimter_run (by norm_num) (by norm_num) 0 [0, 0] smooth 50 50, level_run levelLink_path 0 p2pQc p2pQr, area_run areaLink_level.1 ⟨2, 2⟩ 50 50 areaQc, (C06_fifty 0).2 rfl⟩

/-! ### C52 -/

/-- **C52** One row per transmitter height 10, 11, …, 130 m, each equal to the row of a run for that height alone: nothing carries over
from one height to the next (over any arithmetic whose comparison is total). -/
theorem C52_rows {α : Type} [PyNum α] (ho : Ordered α) {qr qc : Int} {terrain surface distance : List α} {p : PropSt α} {rows : List (PimterRow α)}
    (h : runItmlogicPimterAt qr qc terrain surface distance p = .ok rows) :
    ∃ s zr zc, pimterSetup p terrain distance = .ok s ∧ qerfi [PyNum.ofInt qr] = .ok [zr] ∧ qerfi [PyNum.ofInt qc] = .ok [zc] ∧
      List.Forall₂ (fun (i : Nat) row => row.hg = PyNum.ofInt (10 + (i : Int)) ∧ row.reliability = qr ∧ row.fmhz = 2.488 * 1000.0 ∧
        pimterLoop qr zr zc [PyNum.ofInt (10 + (i : Int))] s = .ok [row]) (List.range 121) rows := by
  obtain ⟨s, zr, zc, hs, h1, h2, h3⟩ := pimterAt_ok h
  refine ⟨s, zr, zc, hs, h1, h2, ?_⟩
  have hfm : s.fmhz = 2.488 * 1000.0 := by
    rw [pimterSetup_eq] at hs
    obtain ⟨_, -, hs⟩ := bind_eq_ok.1 hs
    obtain ⟨_, -, hs⟩ := bind_eq_ok.1 hs
    obtain ⟨_, -, hs⟩ := bind_eq_ok.1 hs
    obtain ⟨_, -, hs⟩ := bind_eq_ok.1 hs
    rw [pure_ok, ok_inj] at hs
    rw [← hs]
  have hf := pimterLoop_ok ho (.refl s) h3
  rw [List.forall₂_map_left_iff] at hf
  refine hf.imp fun i row ht => ?_
  obtain ⟨r, ht⟩ := ht
  obtain ⟨q, fs, a, q', -, -, -, -, -, e⟩ := pimterTurn_ok ht
  refine ⟨by rw [e], by rw [e], by rw [e]; exact hfm, ?_⟩
  rw [pimterLoop_cons, ht, ok_bind]
  rfl

/-- **C52** The surface profile handed to `run_itmlogic` is not consulted: the answer is the same for every profile. -/
theorem C52_surface_unused {α : Type} [PyNum α] (qr qc : Int) (terrain surface surface' distance : List α) (p : PropSt α) :
    runItmlogicPimterAt qr qc terrain surface distance p = runItmlogicPimterAt qr qc terrain surface' distance p := rfl

/-- **C52** The shipped campaign: 121 rows for the heights 10 … 130 m in order, at 50 % reliability and 2488 MHz, and the same whatever
surface profile is handed over. -/
theorem C52_shipped {α : Type} [PyNum α] (ho : Ordered α) {terrain surface distance : List α} {p : PropSt α} {rows : List (PimterRow α)}
    (h : runItmlogicPimter terrain surface distance p = .ok rows) :
    rows.map (fun row => (row.hg, row.reliability, row.fmhz)) =
      (List.range 121).map (fun i : Nat => (PyNum.ofInt (10 + (i : Int)), (50 : Int), (2.488 * 1000.0 : α))) ∧
    ∀ surface', runItmlogicPimter terrain surface' distance p = .ok rows := by
  refine ⟨?_, fun surface' => (C52_surface_unused 50 50 terrain surface' surface distance p).trans h⟩
  obtain ⟨_, _, _, _, _, _, hf⟩ := C52_rows ho h
  generalize List.range 121 = l at hf ⊢
  clear h
  induction hf with
  | nil => rfl
  | cons h1 _ ih =>
    rw [List.map_cons, List.map_cons, ih, h1.1, h1.2.1, h1.2.2.1]

/-- The rows of a level profile exist, and there are 121 of them. -/
example : ∃ rows, runItmlogicPimter [0, 0] [0, 0] [0, 200000] smooth = .ok rows ∧ rows.length = 121 := by
  obtain ⟨rows, h⟩ := pimter_run (D := 200000) (by norm_num) (by norm_num) 0 [0, 0] smooth 50 50
  refine ⟨rows, h, ?_⟩
  obtain ⟨_, _, _, _, _, _, hf⟩ := C52_rows ordered_real h
  rw [← hf.length_eq, List.length_range]

/-! ### C53 -/

/-- **C53** Point-to-point: a level two-point profile of 100 to 300 km with equal antennas up to 100 m, at 381.6 MHz or more, either
polarization, is answered without an exception for every choice of percentages, whatever the dictionary held before. -/
theorem C53_p2p {p : PropSt ℝ} {h : ℝ} (H : LevelPath p h) (c : ℝ) (qc qr : List Int) :
    ∃ rows msgs r, itmlogicP2PAt qc qr p [c, c] = .ok (rows, msgs, r) ∧ rows.length = qr.length * qc.length := by
  obtain ⟨rows, msgs, r, e⟩ := level_run H c qc qr
  refine ⟨rows, msgs, r, e, ?_⟩
  obtain ⟨_, _, _, -, -, -, -, -, hf⟩ := C42_rows e
  rw [← hf.length_eq]
  unfold pairs
  rw [List.length_flatMap]
  simp

/-- **C53** Area: smooth ground, both antennas above ground, the grid beyond the horizon, for every siting and choice of percentages. -/
theorem C53_area {p : PropSt ℝ} {g : Grid ℝ} {h : ℝ} (H : LevelArea p g h) (kst : Pair Int) (qt ql : Int) (qc : List Int) :
    ∃ rows r, itmlogicAreaAt qt ql qc g kst p = .ok (rows, r) := area_run H kst qt ql qc

/-- **C53** Campaign: a level two-point profile of 125 to 300 km, for every choice of percentages. -/
theorem C53_pimter {D : ℝ} (h1 : 125e3 ≤ D) (h2 : D ≤ 300e3) (c : ℝ) (surface : List ℝ) (p : PropSt ℝ) (qr qc : Int) :
    ∃ rows, runItmlogicPimterAt qr qc [c, c] surface [0, D] p = .ok rows := pimter_run h1 h2 c surface p qr qc

example : LevelPath levelLink 20 ∧ (∃ h, LevelArea areaLink gridDefault h) := ⟨levelLink_path, _, areaLink_level.1⟩

end Itm.Props
