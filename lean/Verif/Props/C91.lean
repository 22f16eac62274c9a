import Verif.Spec.Plot
import Verif.Props.C45
import Verif.Props.C42

/-! C91: what the figures of `vis.py` show. -/

namespace Itm.Props
open Itm Itm.Spec

section
variable {γ : Type} [LinearOrder γ]

theorem mem_sortUniq {l : List γ} {a : γ} : a ∈ sortUniq l ↔ a ∈ l := by
  unfold sortUniq; rw [List.mem_insertionSort, List.mem_dedup]

theorem sortUniq_lt (l : List γ) : (sortUniq l).Pairwise (· < ·) := by
  have h1 : (sortUniq l).Pairwise (· ≤ ·) := List.pairwise_insertionSort _ _
  have h2 : (sortUniq l).Nodup := (List.perm_insertionSort _ _).nodup_iff.2 (List.nodup_dedup l)
  exact (h1.and h2).imp fun h => lt_of_le_of_ne h.1 h.2

/-- Two strictly increasing lists with the same members are equal. -/
theorem sorted_ext {l m : List γ} (hl : l.Pairwise (· < ·)) (hm : m.Pairwise (· < ·)) (h : ∀ a, a ∈ l ↔ a ∈ m) : l = m := by
  have p : l.Perm m := (List.perm_ext_iff_of_nodup (hl.imp fun h => h.ne) (hm.imp fun h => h.ne)).2 h
  exact p.eq_of_pairwise' (hl.imp fun h => h.le) (hm.imp fun h => h.le)
end

variable {κ β : Type} [LinearOrder κ]

theorem plotCurves_ok {rows : List (PlotRow κ β)} (hne : rows ≠ []) (hnd : (rows.map fun r => (r.x, r.level)).Nodup) :
    plotCurves rows = .ok ((sortUniq (rows.map PlotRow.level)).zipIdx.map fun (c, i) =>
      { label := legendTexts[i]?
        points := (sortUniq (rows.map PlotRow.x)).map fun x =>
          (x, (rows.find? fun r => decide (r.x = x ∧ r.level = c)).map PlotRow.loss) }) := by
  unfold plotCurves
  rw [if_neg (not_not.2 hnd), if_neg (by simpa using hne)]
  rfl

/-- **C91** (curves) A table without a repeated pair of axis value and level gives one curve per level, in increasing order of the levels; each
shows exactly the losses of its level, from left to right, and carries the legend text of its position. -/
theorem C91_curves {rows : List (PlotRow κ β)} (hne : rows ≠ []) (hnd : (rows.map fun r => (r.x, r.level)).Nodup) :
    ∃ (ks : List (Curve κ β)) (ls : List Int), plotCurves rows = .ok ks ∧ ls.Pairwise (· < ·) ∧ (∀ c, c ∈ ls ↔ ∃ r ∈ rows, r.level = c) ∧
      ks.length = ls.length ∧ ∀ (i : ℕ) (k : Curve κ β) (c : ℤ), ks[i]? = some k → ls[i]? = some c → Shows rows c k ∧ k.label = legendTexts[i]? := by
  refine ⟨_, sortUniq (rows.map PlotRow.level), plotCurves_ok hne hnd, sortUniq_lt _, ?_, ?_, ?_⟩
  · intro c; rw [mem_sortUniq, List.mem_map]
  · simp
  · intro i k c hk hc
    rw [List.getElem?_map, List.getElem?_zipIdx, hc] at hk
    simp only [Option.map_some, Option.some.injEq, Nat.zero_add] at hk
    subst hk
    refine ⟨⟨?_, ?_⟩, rfl⟩
    · dsimp only
      rw [List.map_map]
      have : (Prod.fst ∘ fun x => (x, (rows.find? fun r => decide (r.x = x ∧ r.level = c)).map PlotRow.loss)) = (id : κ → κ) := rfl
      rw [this, List.map_id]
      exact sortUniq_lt _
    · intro x v
      simp only [List.mem_map, Prod.mk.injEq, mem_sortUniq]
      constructor
      · rintro ⟨y, -, rfl, h⟩
        obtain ⟨r, hr, rfl⟩ := Option.map_eq_some_iff.1 h
        have h1 := List.mem_of_find?_eq_some hr
        have h2 := List.find?_some hr
        rw [decide_eq_true_eq] at h2
        exact ⟨r, h1, h2.1, h2.2, rfl⟩
      · rintro ⟨r, hr, rfl, rfl, rfl⟩
        refine ⟨r.x, ⟨r, hr, rfl⟩, rfl, ?_⟩
        cases hf : rows.find? fun s => decide (s.x = r.x ∧ s.level = r.level) with
        | none =>
          have := List.find?_eq_none.1 hf r hr
          simp at this
        | some s =>
          have h1 := List.mem_of_find?_eq_some hf
          have h2 := List.find?_some hf
          rw [decide_eq_true_eq] at h2
          have : s = r := List.inj_on_of_nodup_map hnd h1 hr (by rw [h2.1, h2.2])
          rw [this]; rfl

/-- **C91** (repetitions) A table that has two rows for one axis value and one level is not plotted at all. -/
theorem C91_repeated {rows : List (PlotRow κ β)} (hnd : ¬ (rows.map fun r => (r.x, r.level)).Nodup) : plotCurves rows = .error .valueError := by
  unfold plotCurves
  rw [if_pos hnd]
  rfl

/-- The levels the legend is written for. -/
theorem legend_named (i : ℕ) : legendTexts[i]?.map namedLevel = ([10, 50, 90] : List ℤ)[i]? := by
  match i with
  | 0 => decide
  | 1 => decide
  | 2 => decide
  | (n + 3) => simp [legendTexts]

/-- **C91** (legend) The figure tells the truth – every level has a curve named after it, every text names the level of its curve – exactly if
the levels in the table are 10 %, or 10 and 50 %, or 10, 50 and 90 %, in any order. For any other levels some curve is labelled wrongly or not
at all. -/
theorem C91_legend {rows : List (PlotRow κ β)} {ks : List (Curve κ β)} (h : plotCurves rows = .ok ks) :
    Truthful rows ks ↔ ∃ ls : List ℤ, ls <+: [10, 50, 90] ∧ ∀ c, c ∈ ls ↔ ∃ r ∈ rows, r.level = c := by
  have hnd : (rows.map fun r => (r.x, r.level)).Nodup := by
    by_contra hc
    rw [C91_repeated hc] at h
    exact absurd h (by simp)
  have hne : rows ≠ [] := by
    rintro rfl
    unfold plotCurves at h
    simp at h
    exact absurd h (by simp [throw, throwThe, MonadExceptOf.throw])
  obtain ⟨ks', ls, e, hlt, hmem, hlen, hall⟩ := C91_curves hne hnd
  rw [h, ok_inj] at e
  subst e
  have named : ∀ (i : ℕ) (k : Curve κ β) (c : ℤ), ks[i]? = some k → ls[i]? = some c → k.label.map namedLevel = ([10, 50, 90] : List ℤ)[i]? := by
    intro i k c hk hc
    rw [(hall i k c hk hc).2, legend_named]
  constructor
  · rintro ⟨t1, t2⟩
    refine ⟨ls, ?_, hmem⟩
    have hsub : ls ⊆ [10, 50, 90] := by
      intro c hc
      obtain ⟨r, hr, rfl⟩ := (hmem c).1 hc
      obtain ⟨k, hk, -, t, ht, hn⟩ := t1 r hr
      obtain ⟨i, hi⟩ := List.getElem?_of_mem hk
      have hil : i < ls.length := by
        rw [← hlen]; exact (List.getElem?_eq_some_iff.1 hi).1
      have := named i k _ hi (List.getElem?_eq_getElem hil)
      rw [ht, Option.map_some, hn] at this
      exact List.mem_of_getElem? this.symm
    have hnod : ls.Nodup := hlt.imp fun h => h.ne
    have h3 : ls.length ≤ 3 := (List.subperm_of_subset hnod hsub).length_le
    have hsup : ([10, 50, 90] : List ℤ).take ls.length ⊆ ls := by
      intro c hc
      obtain ⟨i, hi⟩ := List.getElem?_of_mem hc
      have hil : i < ls.length := by
        have := (List.getElem?_eq_some_iff.1 hi).1
        rw [List.length_take] at this
        omega
      rw [List.getElem?_take_of_lt hil] at hi
      have hk := List.getElem?_eq_getElem (hlen ▸ hil : i < ks.length)
      have hcl := List.getElem?_eq_getElem hil
      have hn := named i _ _ hk hcl
      rw [hi] at hn
      obtain ⟨t, ht, rfl⟩ := Option.map_eq_some_iff.1 hn
      have s1 := (hall i _ _ hk hcl).1
      have s2 := t2 _ (List.mem_of_getElem? hk) t ht
      obtain ⟨r, hr, hrl⟩ := (hmem _).1 (List.mem_of_getElem? hcl)
      have := (s1.all r.x r.loss).2 ⟨r, hr, rfl, hrl, rfl⟩
      obtain ⟨r', hr', -, hl', -⟩ := (s2.all r.x r.loss).1 this
      exact (hmem _).2 ⟨r', hr', hl'⟩
    have hL : ([10, 50, 90] : List ℤ).Pairwise (· < ·) := by decide
    have hT : (([10, 50, 90] : List ℤ).take ls.length).Pairwise (· < ·) := hL.sublist (List.take_sublist _ _)
    have hp : (([10, 50, 90] : List ℤ).take ls.length).Perm ls :=
      (List.subperm_of_subset (hT.imp fun h => h.ne) hsup).perm_of_length_le (by rw [List.length_take]; simp; omega)
    have he : ([10, 50, 90] : List ℤ).take ls.length = ls := sorted_ext hT hlt fun a => hp.mem_iff
    rw [← he]
    exact List.take_prefix _ _
  · rintro ⟨ls', hpre, hmem'⟩
    have hL : ([10, 50, 90] : List ℤ).Pairwise (· < ·) := by decide
    have he : ls = ls' := sorted_ext hlt (hL.sublist hpre.sublist) fun a => by rw [hmem, hmem']
    subst he
    obtain ⟨tl, htl⟩ := hpre
    have key : ∀ (i : ℕ) (k : Curve κ β), ks[i]? = some k → ∃ c, ls[i]? = some c ∧ Shows rows c k ∧ k.label.map namedLevel = some c := by
      intro i k hk
      have hil : i < ls.length := by rw [← hlen]; exact (List.getElem?_eq_some_iff.1 hk).1
      have hc := List.getElem?_eq_getElem hil
      refine ⟨_, hc, (hall i k _ hk hc).1, ?_⟩
      rw [named i k _ hk hc, ← htl, List.getElem?_append_left hil, hc]
    constructor
    · intro r hr
      obtain ⟨i, hi⟩ := List.getElem?_of_mem ((hmem r.level).2 ⟨r, hr, rfl⟩)
      have hil : i < ks.length := by rw [hlen]; exact (List.getElem?_eq_some_iff.1 hi).1
      obtain ⟨c, hc, hs, hn⟩ := key i _ (List.getElem?_eq_getElem hil)
      rw [hi, Option.some.injEq] at hc
      subst hc
      obtain ⟨t, ht, hn⟩ := Option.map_eq_some_iff.1 hn
      exact ⟨_, List.getElem_mem hil, hs, t, ht, hn⟩
    · intro k hk t ht
      obtain ⟨i, hi⟩ := List.getElem?_of_mem hk
      obtain ⟨c, hc, hs, hn⟩ := key i _ hi
      rw [ht, Option.map_some, Option.some.injEq] at hn
      rw [hn]; exact hs

/-- A table that has every level at every axis value once. -/
theorem grid_plot {rows : List (PlotRow κ β)} {xs : List κ} {qc : List ℤ} (hx : xs.Nodup) (hxe : xs ≠ []) (hc : qc.Nodup) (hce : qc ≠ [])
    (h : rows.map (fun r => (r.x, r.level)) = xs.flatMap fun x => qc.map fun c => (x, c)) :
    ∃ ks, plotCurves rows = .ok ks ∧ ks.length = qc.length ∧ (Truthful rows ks ↔ ∃ ls : List ℤ, ls <+: [10, 50, 90] ∧ ls.Perm qc) := by
  have hnd : (rows.map fun r => (r.x, r.level)).Nodup := by
    rw [h]
    exact hx.product hc
  have hlev : ∀ c, (∃ r ∈ rows, r.level = c) ↔ c ∈ qc := by
    intro c
    have : (∃ r ∈ rows, r.level = c) ↔ ∃ y ∈ rows.map (fun r => (r.x, r.level)), y.2 = c := by simp
    rw [this, h]
    constructor
    · rintro ⟨y, hy, rfl⟩
      obtain ⟨x, -, hy⟩ := List.mem_flatMap.1 hy
      obtain ⟨c, hc, rfl⟩ := List.mem_map.1 hy
      exact hc
    · intro hc
      obtain ⟨x, hx⟩ := List.exists_mem_of_ne_nil _ hxe
      exact ⟨(x, c), List.mem_flatMap.2 ⟨x, hx, List.mem_map.2 ⟨c, hc, rfl⟩⟩, rfl⟩
  have hne : rows ≠ [] := by
    obtain ⟨c, hc⟩ := List.exists_mem_of_ne_nil _ hce
    obtain ⟨r, hr, -⟩ := (hlev c).2 hc
    exact List.ne_nil_of_mem hr
  obtain ⟨ks, ls, e, hlt, hmem, hlen, -⟩ := C91_curves hne hnd
  refine ⟨ks, e, ?_, ?_⟩
  · rw [hlen]
    exact ((List.perm_ext_iff_of_nodup (hlt.imp fun h => h.ne) hc).2 fun a => by rw [hmem, hlev]).length_eq
  · rw [C91_legend e]
    have hL : ([10, 50, 90] : List ℤ).Pairwise (· < ·) := by decide
    refine exists_congr fun l => and_congr_right fun hp => ?_
    rw [List.perm_ext_iff_of_nodup ((hL.sublist hp.sublist).imp fun h => h.ne) hc]
    exact forall_congr' fun c => by rw [hlev]

/-- The table of an area run as the figure reads it. -/
def areaTable {α : Type} (rows : List (AreaRow α)) : List (PlotRow α α) := rows.map fun r => { x := r.distance_km, level := r.confidence, loss := r.loss }

/-- The table of a point-to-point run as the figure reads it. -/
def p2pTable {α : Type} (rows : List (P2PRow α)) : List (PlotRow Int α) := rows.map fun r => { x := r.reliability, level := r.confidence, loss := r.loss }

/-- **C91** (area figure) For every grid and every list of different levels the figure is drawn with one curve per level; it tells the truth
exactly if the levels are 10, or 10 and 50, or 10, 50 and 90 %. -/
theorem C91_area {qt ql : Int} {qc : List Int} {g : Grid ℝ} {kst : Pair Int} {p r : PropSt ℝ} {rows : List (AreaRow ℝ)} (h0 : 0 < g.d0)
    (h1 : g.d0 < g.d1) (hs : 0 < g.ds1) (hc : qc.Nodup) (hce : qc ≠ []) (h : itmlogicAreaAt qt ql qc g kst p = .ok (rows, r)) :
    ∃ ks, plotArea rows = .ok ks ∧ ks.length = qc.length ∧ (Truthful (areaTable rows) ks ↔ ∃ ls : List ℤ, ls <+: [10, 50, 90] ∧ ls.Perm qc) := by
  obtain ⟨ds, -, hlt, ⟨rest, hd⟩, hrows⟩ := C46_grid h0 h1 hs h
  refine grid_plot (rows := areaTable rows) (xs := ds) (hlt.imp fun h => h.ne) (by rw [hd]; simp) hc hce ?_
  rw [← hrows]
  simp [areaTable]

/-- **C91** (area figure) The figure of the shipped area driver tells the truth. -/
theorem C91_area_shipped {kst : Pair Int} {p r : PropSt ℝ} {rows : List (AreaRow ℝ)} (h : itmlogicArea gridDefault kst p = .ok (rows, r)) :
    ∃ ks, plotArea rows = .ok ks ∧ ks.length = 3 ∧ Truthful (areaTable rows) ks := by
  obtain ⟨ks, e, hl, ht⟩ := C91_area (by norm_num [gridDefault]) (by norm_num [gridDefault]) (by norm_num [gridDefault]) (by decide) (by decide) h
  exact ⟨ks, e, hl, ht.2 ⟨[10, 50, 90], List.prefix_refl _, by decide⟩⟩

/-- **C91** (point-to-point figure) For all lists of different levels the bars are drawn; the vertical axis ends 50 dB above the largest loss, and
the legend tells the truth exactly if the confidence levels are 10, or 10 and 50, or 10, 50 and 90 %. -/
theorem C91_p2p {qc qr : List Int} {p r : PropSt ℝ} {profile : List ℝ} {rows : List (P2PRow ℝ)} {msgs : List P2PMsg} (hc : qc.Nodup) (hce : qc ≠ [])
    (hr : qr.Nodup) (hre : qr ≠ []) (h : itmlogicP2PAt qc qr p profile = .ok (rows, msgs, r)) :
    ∃ top ks, plotP2P rows = .ok (top, ks) ∧ ks.length = qc.length ∧ (∀ row ∈ rows, row.loss + 50 ≤ top) ∧ (∃ row ∈ rows, row.loss + 50 = top) ∧
      (Truthful (p2pTable rows) ks ↔ ∃ ls : List ℤ, ls <+: [10, 50, 90] ∧ ls.Perm qc) := by
  obtain ⟨s, q, l, -, -, -, -, -, hf⟩ := C42_rows h
  have hrows := (rows_levels hf).1
  obtain ⟨ks, e, hl, ht⟩ := grid_plot (rows := p2pTable rows) (xs := qr) hr hre hc hce (by
    rw [show pairs qr qc = qr.flatMap fun x => qc.map fun c => (x, c) from rfl] at hrows
    rw [← hrows]; simp [p2pTable])
  cases rows with
  | nil =>
    exfalso
    obtain ⟨x, hx⟩ := List.exists_mem_of_ne_nil _ hre
    obtain ⟨c, hc⟩ := List.exists_mem_of_ne_nil _ hce
    have : (x, c) ∈ pairs qr qc := List.mem_flatMap.2 ⟨x, hx, List.mem_map.2 ⟨c, hc, rfl⟩⟩
    rw [← hrows] at this
    simp at this
  | cons a rest =>
    have hfold : ∀ (ls : List ℝ) (m : ℝ), (∀ v ∈ m :: ls, v ≤ ls.foldl (fun m v => if m < v then v else m) m) ∧
        ls.foldl (fun m v => if m < v then v else m) m ∈ m :: ls := by
      intro ls
      induction ls with
      | nil => intro m; simp
      | cons b ls ih =>
        intro m
        obtain ⟨i1, i2⟩ := ih (if m < b then b else m)
        rw [List.foldl_cons]
        have hm : m ≤ (if m < b then b else m) ∧ b ≤ (if m < b then b else m) := by
          split_ifs with hlt
          · exact ⟨hlt.le, le_rfl⟩
          · exact ⟨le_rfl, not_lt.1 hlt⟩
        have hm0 := i1 _ (List.mem_cons_self ..)
        constructor
        · intro v hv
          rcases List.mem_cons.1 hv with rfl | hv
          · exact hm.1.trans hm0
          · rcases List.mem_cons.1 hv with rfl | hv
            · exact hm.2.trans hm0
            · exact i1 v (List.mem_cons_of_mem _ hv)
        · rcases List.mem_cons.1 i2 with e | e
          · rw [e]; split_ifs <;> simp
          · exact List.mem_cons_of_mem _ (List.mem_cons_of_mem _ e)
    obtain ⟨f1, f2⟩ := hfold (rest.map P2PRow.loss) a.loss
    have e50 : (50.0 : ℝ) = 50 := by norm_num
    refine ⟨(rest.map P2PRow.loss).foldl (fun m v => if m < v then v else m) a.loss + 50.0, ks, ?_, hl, ?_, ?_, ht⟩
    · unfold plotP2P
      unfold p2pTable at e
      rw [e]
      rfl
    · intro row hrow
      rw [e50]
      have := f1 row.loss (by rw [← List.map_cons]; exact List.mem_map_of_mem hrow)
      linarith
    · rw [← List.map_cons] at f2
      obtain ⟨row, h1, h2⟩ := List.mem_map.1 f2
      exact ⟨row, h1, by rw [e50, h2]⟩

/-- **C91** (point-to-point figure) The figure of the shipped point-to-point driver tells the truth. -/
theorem C91_p2p_shipped {p r : PropSt ℝ} {profile : List ℝ} {rows : List (P2PRow ℝ)} {msgs : List P2PMsg}
    (h : itmlogicP2P p profile = .ok (rows, msgs, r)) : ∃ top ks, plotP2P rows = .ok (top, ks) ∧ ks.length = 3 ∧ Truthful (p2pTable rows) ks := by
  obtain ⟨top, ks, e, hl, -, -, ht⟩ := C91_p2p (by decide) (by decide) (by decide) (by decide) h
  exact ⟨top, ks, e, hl, ht.2 ⟨[10, 50, 90], List.prefix_refl _, by decide⟩⟩

/-- **C91** (refuted for other levels) A user who asks for 5, 50 and 95 % gets a figure in which the curve of the 5 % losses is called
"10% Confidence" and the one of the 95 % losses "90% Confidence". -/
theorem C91_refuted {rows : List (PlotRow κ β)} (hnd : (rows.map fun r => (r.x, r.level)).Nodup)
    (hl : ∀ c, (∃ r ∈ rows, r.level = c) ↔ c = 5 ∨ c = 50 ∨ c = 95) :
    ∃ ks, plotCurves rows = .ok ks ∧ ¬ Truthful rows ks ∧
      (∃ k ∈ ks, Shows rows 5 k ∧ k.label = some "10% Confidence".toList) ∧ ∃ k ∈ ks, Shows rows 95 k ∧ k.label = some "90% Confidence".toList := by
  have hne : rows ≠ [] := by
    obtain ⟨r, hr, -⟩ := (hl 5).2 (.inl rfl)
    exact List.ne_nil_of_mem hr
  obtain ⟨ks, ls, e, hlt, hmem, hlen, hall⟩ := C91_curves hne hnd
  have hls : ls = [5, 50, 95] := sorted_ext hlt (by decide) fun a => by rw [hmem, hl]; simp
  subst hls
  have hlen3 : ks.length = 3 := hlen
  refine ⟨ks, e, ?_, ?_, ?_⟩
  · rw [C91_legend e]
    rintro ⟨l, hp, hm⟩
    have h5 : (5 : ℤ) ∈ l := (hm 5).2 ((hl 5).2 (.inl rfl))
    have := hp.subset h5
    simp at this
  · have := hall 0 _ _ (List.getElem?_eq_getElem (by omega)) rfl
    exact ⟨_, List.getElem_mem _, this.1, this.2⟩
  · have := hall 2 _ _ (List.getElem?_eq_getElem (by omega)) rfl
    exact ⟨_, List.getElem_mem _, this.1, this.2⟩

/-! ### Examples -/

/-- Two distances, three levels. -/
example : ∃ ks, plotCurves ([⟨10, 50, 120⟩, ⟨10, 90, 130⟩, ⟨10, 10, 110⟩, ⟨20, 50, 125⟩, ⟨20, 90, 135⟩, ⟨20, 10, 115⟩] : List (PlotRow ℕ ℕ)) = .ok ks ∧
    ks.length = 3 ∧ Truthful ([⟨10, 50, 120⟩, ⟨10, 90, 130⟩, ⟨10, 10, 110⟩, ⟨20, 50, 125⟩, ⟨20, 90, 135⟩, ⟨20, 10, 115⟩] : List (PlotRow ℕ ℕ)) ks := by
  obtain ⟨ks, e, hl, ht⟩ := grid_plot (rows := ([⟨10, 50, 120⟩, ⟨10, 90, 130⟩, ⟨10, 10, 110⟩, ⟨20, 50, 125⟩, ⟨20, 90, 135⟩, ⟨20, 10, 115⟩] : List (PlotRow ℕ ℕ)))
    (xs := [10, 20]) (qc := [50, 90, 10]) (by decide) (by decide) (by decide) (by decide) rfl
  exact ⟨ks, e, hl, ht.2 ⟨[10, 50, 90], List.prefix_refl _, by decide⟩⟩

/-- The same with other levels. -/
example : ∃ ks, plotCurves ([⟨10, 50, 120⟩, ⟨10, 95, 130⟩, ⟨10, 5, 110⟩] : List (PlotRow ℕ ℕ)) = .ok ks ∧
    ∃ k ∈ ks, Shows ([⟨10, 50, 120⟩, ⟨10, 95, 130⟩, ⟨10, 5, 110⟩] : List (PlotRow ℕ ℕ)) 5 k ∧ k.label = some "10% Confidence".toList := by
  obtain ⟨ks, e, -, h, -⟩ := C91_refuted (rows := ([⟨10, 50, 120⟩, ⟨10, 95, 130⟩, ⟨10, 5, 110⟩] : List (PlotRow ℕ ℕ))) (by decide)
    (by intro c; simp; omega)
  exact ⟨ks, e, h⟩

/-- Two rows for the same distance and level. -/
example : plotCurves ([⟨10, 50, 120⟩, ⟨10, 50, 121⟩] : List (PlotRow ℕ ℕ)) = .error .valueError := C91_repeated (by decide)

/-- The figures of actual runs. -/
example : ∃ rows r ks, itmlogicArea gridDefault ⟨2, 2⟩ areaLink = .ok (rows, r) ∧ plotArea rows = .ok ks ∧ ks.length = 3 := by
  obtain ⟨rows, r, h⟩ := C46_accepted_partial areaLink_level.1 ⟨2, 2⟩ 50 50 areaQc
  obtain ⟨ks, e, hl, -⟩ := C91_area_shipped h
  exact ⟨rows, r, ks, h, e, hl⟩

example : ∃ rows msgs r top ks, itmlogicP2P levelLink [0, 0] = .ok (rows, msgs, r) ∧ plotP2P rows = .ok (top, ks) ∧ ks.length = 3 := by
  obtain ⟨rows, msgs, r, h⟩ := level_run levelLink_path 0 p2pQc p2pQr
  obtain ⟨top, ks, e, hl, -⟩ := C91_p2p_shipped h
  exact ⟨rows, msgs, r, top, ks, h, e, hl⟩

end Itm.Props
