import Verif.Lemmas.AreaTotal
import Verif.Spec.Grid
import Verif.Props.C42

/-! C45, C46: the area runner. -/

namespace Itm.Props
open Itm Itm.Spec

section
variable {α : Type} [PyNum α]

/-- **C45** Rows and exception of an area run depend on frequency, terrain irregularity, antenna heights and polarization only (over any
arithmetic whose comparison is total, so without NaN). -/
theorem C45_no_leak (ho : Ordered α) (qt ql : Int) (qc : List Int) (g : Grid α) (kst : Pair Int) {p p' : PropSt α} (hf : p.fmhz = p'.fmhz)
    (hd : p.dh = p'.dh) (hg : p.hg = p'.hg) (hi : p.ipol = p'.ipol) :
    (itmlogicAreaAt qt ql qc g kst p).map Prod.fst = (itmlogicAreaAt qt ql qc g kst p').map Prod.fst :=
  (area_rel ho qt ql qc g kst hf hd hg hi).map_eq fun _ _ h => h

theorem areaLoop_keeps {zt zl : α} {zc : List (Int × α)} {ndc : Int} {ds2 : α} {k : Nat} {jd : Int} {d dt : α} {p r : PropSt α}
    {rows : List (AreaRow α)} (hi : CacheInv p) (h : areaLoop zt zl zc ndc ds2 k jd d dt p = .ok (rows, r)) :
    r.fmhz = p.fmhz ∧ r.dh = p.dh ∧ r.hg = p.hg ∧ r.ipol = p.ipol := by
  induction k generalizing jd d dt p rows with
  | zero =>
    unfold areaLoop at h
    rw [pure_ok, ok_inj] at h
    obtain ⟨rfl, rfl⟩ := Prod.mk.inj h
    exact ⟨rfl, rfl, rfl, rfl⟩
  | succ k ih =>
    unfold areaLoop at h
    obtain ⟨q, hq, h⟩ := bind_eq_ok.1 h
    obtain ⟨fs, hfs, h⟩ := bind_eq_ok.1 h
    obtain ⟨⟨r1, q1⟩, h1, h⟩ := bind_eq_ok.1 h
    obtain ⟨⟨r2, q2⟩, h2, h⟩ := bind_eq_ok.1 h
    dsimp only at h
    rw [pure_ok, ok_inj] at h
    obtain ⟨rfl, rfl⟩ := Prod.mk.inj h
    have fr := lrprop_frame hq
    have hiq : CacheInv q := cacheInv_lrFrame (hi.raise (n := max 1 p.lvar) (by omega)) (by simp only; omega) fr
    obtain ⟨⟨i1, k1, f1⟩, -⟩ := areaInner_ok hiq h1
    obtain ⟨a, b, c, d⟩ := ih i1 h2
    obtain ⟨_, _, _, _, _, _, _, _, rfl⟩ := f1
    obtain ⟨_, _, _, _, _, _, _, rfl⟩ := fr
    exact ⟨a, b, c, d⟩

/-- **C45** Rerunning on the dictionary an earlier run has left returns the same rows. -/
theorem C45_rerun (ho : Ordered α) {qt ql : Int} {qc : List Int} {g : Grid α} {kst : Pair Int} {p r : PropSt α} {rows : List (AreaRow α)}
    (h : itmlogicAreaAt qt ql qc g kst p = .ok (rows, r)) : ∃ r', itmlogicAreaAt qt ql qc g kst r = .ok (rows, r') := by
  have hk : r.fmhz = p.fmhz ∧ r.dh = p.dh ∧ r.hg = p.hg ∧ r.ipol = p.ipol := by
    obtain ⟨zt, zl, zc, s, q, dt, -, -, -, hs, hq, -, hl⟩ := itmlogicAreaAt_ok h
    rw [areaSetup_eq] at hs
    obtain ⟨z, -, hs⟩ := bind_eq_ok.1 hs
    rw [pure_ok, ok_inj] at hs
    rw [qlra_eq] at hq
    obtain ⟨⟨x, y, w⟩, -, hq⟩ := bind_eq_ok.1 hq
    dsimp only at hq
    rw [pure_ok, ok_inj, prepMarks_eq] at hq
    obtain ⟨a, b, c, d⟩ := areaLoop_keeps (cacheInv_of_five (by rw [← hq, ← hs]; simp)) hl
    rw [a, b, c, d, ← hq, ← hs]
    exact ⟨rfl, rfl, rfl, rfl⟩
  have := C45_no_leak ho qt ql qc g kst (p := p) (p' := r) hk.1.symm hk.2.1.symm hk.2.2.1.symm hk.2.2.2.symm
  rw [h] at this
  cases hr : itmlogicAreaAt qt ql qc g kst r with
  | error e => rw [hr] at this; cases this
  | ok x =>
    rw [hr] at this
    simp only [Except.map, ok_inj] at this
    obtain ⟨x1, x2⟩ := x
    exact ⟨x2, by rw [this]⟩

end

/-- 1 m antennas at 24 GHz over smooth earth; everything else is left over from another link. -/
noncomputable def areaLink : PropSt ℝ := { smooth with fmhz := 24000, dh := 0, ipol := 1, hg := ⟨1, 1⟩ }

/-- Another leftover, same link. -/
noncomputable def areaLink' : PropSt ℝ := { skew with fmhz := 24000, dh := 0, ipol := 1, hg := ⟨1, 1⟩, lvar := 3, kwx := 4, aref := some 77 }

theorem areaLink_level : LevelArea areaLink gridDefault 1 ∧ LevelArea areaLink' gridDefault 1 := by
  constructor <;> constructor <;> norm_num [areaLink, areaLink', gridDefault]

/-- Two leftovers, one answer, with the shipped settings. -/
example : Ordered ℝ ∧ areaLink ≠ areaLink' ∧ ∃ rows r r', itmlogicArea gridDefault ⟨2, 2⟩ areaLink = .ok (rows, r) ∧
    itmlogicArea gridDefault ⟨2, 2⟩ areaLink' = .ok (rows, r') := by
  refine ⟨ordered_real, ?_, ?_⟩
  · intro h
    have := congrArg PropSt.kwx h
    simp [areaLink, areaLink', smooth, blank] at this
  · obtain ⟨rows, r, h⟩ := area_run areaLink_level.1 ⟨2, 2⟩ 50 50 areaQc
    obtain ⟨rows', r', h'⟩ := area_run areaLink_level.2 ⟨2, 2⟩ 50 50 areaQc
    have := C45_no_leak ordered_real 50 50 areaQc gridDefault ⟨2, 2⟩ (p := areaLink) (p' := areaLink') rfl rfl rfl rfl
    rw [h, h'] at this
    simp only [Except.map, ok_inj] at this
    subst this
    exact ⟨rows, r, r', h, h'⟩

/-! ### C46 -/

theorem loopRow_labels {α : Type} [PyNum α] {wn zt zl : α} {X : List (α × Int × α)} {rows : List (AreaRow α)}
    (h : List.Forall₂ (LoopRow wn zt zl) X rows) : rows.map (fun row => (row.distance_km, row.confidence)) = X.map (fun x => (x.1, x.2.1)) := by
  induction h with
  | nil => rfl
  | cons hd _ ih =>
    obtain ⟨q, fs, a, -, -, -, -, e1, e2, -, -⟩ := hd
    rw [List.map_cons, List.map_cons, ih, e1, e2]

/-- The coarse leg, or a fine leg without coarse leg. -/
theorem gridDist_leg (ndc : Int) (ds2 : ℝ) (k : Nat) (jd : Int) (d dt : ℝ) (h : ndc ≤ jd) :
    gridDist ndc ds2 k jd d dt = (List.range k).map fun i : ℕ => d + i * dt := by
  induction k generalizing jd d with
  | zero => rfl
  | succ k ih =>
    unfold gridDist
    rw [if_neg (by omega), ih _ _ (by omega), List.range_succ_eq_map, List.map_cons, List.map_map]
    congr 1
    · simp
    · refine List.map_congr_left fun i _ => ?_
      simp only [Function.comp_apply, Nat.cast_succ]
      ring

/-- Both legs. -/
theorem gridDist_two (ds2 : ℝ) (n1 n2 : ℕ) (h1 : 1 ≤ n1) (jd : Int) (d dt : ℝ) :
    gridDist (jd + n1) ds2 (n1 + n2) jd d dt = twoLegs d dt n1 ds2 n2 := by
  induction n1 generalizing jd d with
  | zero => omega
  | succ n1 ih =>
    rw [show n1 + 1 + n2 = (n1 + n2) + 1 by omega]
    unfold gridDist
    by_cases hn : n1 = 0
    · subst hn
      rw [if_pos (by simp), gridDist_leg _ _ _ _ _ _ (by simp)]
      unfold twoLegs
      simp only [Nat.zero_add, List.range_one, List.map_cons, List.map_nil, List.cons_append, List.nil_append, Nat.cast_zero, zero_mul, add_zero, Nat.cast_one, sub_self]
      congr 1
      refine List.map_congr_left fun i _ => ?_
      ring
    · rw [if_neg (by push_cast; omega), show jd + ((n1 + 1 : ℕ) : Int) = (jd + 1) + (n1 : ℕ) by push_cast; ring, ih (by omega)]
      unfold twoLegs
      rw [List.range_succ_eq_map, List.map_cons, List.map_map, List.cons_append]
      congr 1
      · simp
      · congr 1
        · refine List.map_congr_left fun i _ => ?_
          simp only [Function.comp_apply, Nat.cast_succ]
          ring
        · refine List.map_congr_left fun i _ => ?_
          push_cast
          ring

theorem plan_grid {g : Grid ℝ} (h0 : 0 < g.d0) (h1 : g.d0 < g.d1) (hs : 0 < g.ds1) :
    GridOf g (gridDist (areaPlan g).ndc (areaPlan g).ds2 (areaPlan g).nd.toNat 0 (areaPlan g).d0 g.ds1) := by
  obtain ⟨nd, hnd, h⟩ := areaPlan_two h0 h1 hs
  have hpos : 0 < (g.d1 - g.d0) / g.ds1 := div_pos (by linarith) hs
  have f1 := Int.floor_le ((g.d1 - g.d0) / g.ds1 + 1.75)
  have f2 := Int.lt_floor_add_one ((g.d1 - g.d0) / g.ds1 + 1.75)
  rw [← hnd] at f1 f2
  have hnd1 : 1 ≤ nd := by
    rw [hnd, Int.le_floor]; norm_num; linarith
  obtain ⟨n1, hn1⟩ := Int.eq_ofNat_of_zero_le (by omega : 0 ≤ nd)
  have hn1' : 1 ≤ n1 := by omega
  have cn : (nd : ℝ) = n1 := by rw [hn1]; simp
  rw [cn] at f1 f2 h
  have r1 : RoundedTo g.d1 g.ds1 (g.d0 + (n1 - 1) * g.ds1) := by
    have e : (g.d1 - g.d0) / g.ds1 * g.ds1 = g.d1 - g.d0 := by field_simp
    generalize (g.d1 - g.d0) / g.ds1 = t at *
    norm_num at f1 f2
    constructor
    · nlinarith
    · nlinarith
  rcases h with ⟨hc, e⟩ | ⟨hc, e⟩
  · refine ⟨n1, 0, hn1', ?_, r1, fun _ => rfl, fun a b => ?_⟩
    · rw [e]
      dsimp only
      rw [hn1, Int.toNat_natCast, gridDist_leg _ _ _ _ _ _ le_rfl]
      unfold twoLegs
      simp
    · rcases hc with hc | hc <;> linarith
  · push Not at hc
    have hpos2 : 0 < (g.d2 - (g.d0 + (n1 - 1) * g.ds1)) / g.ds2 := div_pos (by linarith [hc.1]) hc.2
    have f3 := Int.floor_le ((g.d2 - (g.d0 + (n1 - 1) * g.ds1)) / g.ds2 + 0.75)
    have f4 := Int.lt_floor_add_one ((g.d2 - (g.d0 + (n1 - 1) * g.ds1)) / g.ds2 + 0.75)
    obtain ⟨m, hm⟩ : ∃ m, m = ⌊(g.d2 - (g.d0 + (n1 - 1) * g.ds1)) / g.ds2 + 0.75⌋ := ⟨_, rfl⟩
    rw [← hm] at f3 f4 e
    have hm0 : 0 ≤ m := by rw [hm, Int.le_floor]; norm_num; linarith
    obtain ⟨n2, hn2⟩ := Int.eq_ofNat_of_zero_le hm0
    have cm : (m : ℝ) = n2 := by rw [hn2]; simp
    rw [cm] at f3 f4
    refine ⟨n1, n2, hn1', ?_, r1, fun a => ?_, fun _ _ => ?_⟩
    · rw [e]
      dsimp only
      have := gridDist_two g.ds2 n1 n2 hn1' 0 g.d0 g.ds1
      rw [zero_add] at this
      rw [hn1, hn2]
      exact this
    · rcases a with a | a <;> linarith [hc.1, hc.2]
    · have e : (g.d2 - (g.d0 + (n1 - 1) * g.ds1)) / g.ds2 * g.ds2 = g.d2 - (g.d0 + (n1 - 1) * g.ds1) := by field_simp [hc.2.ne']
      generalize (g.d2 - (g.d0 + (n1 - 1) * g.ds1)) / g.ds2 = t at *
      have h2 := hc.2
      norm_num at f3 f4
      constructor
      · nlinarith
      · nlinarith

theorem gridOf_increasing {g : Grid ℝ} (hs : 0 < g.ds1) {ds : List ℝ} (h : GridOf g ds) : ds.Pairwise (· < ·) ∧ ∃ rest, ds = g.d0 :: rest := by
  obtain ⟨n1, n2, h1, rfl, -, hz, -⟩ := h
  unfold twoLegs
  constructor
  · rw [List.pairwise_append]
    have leg : ∀ (a s : ℝ) (n : ℕ), (n = 0 ∨ 0 < s) → ((List.range n).map fun i : ℕ => a + i * s).Pairwise (· < ·) := by
      intro a s n hn
      rw [List.pairwise_map]
      rcases hn with rfl | hn
      · simp
      · refine List.pairwise_lt_range.imp fun {i j} hij => ?_
        have : (i : ℝ) < j := by exact_mod_cast hij
        nlinarith
    have hds2 : n2 = 0 ∨ 0 < g.ds2 := by
      by_cases h : 0 < g.ds2
      · exact .inr h
      · exact .inl (hz (.inr (not_lt.1 h)))
    refine ⟨leg _ _ _ (.inr hs), ?_, ?_⟩
    · have := leg (g.d0 + (n1 - 1) * g.ds1 + g.ds2) g.ds2 n2 hds2
      refine (List.map_congr_left fun i _ => ?_) ▸ this
      ring
    · intro a ha b hb
      obtain ⟨i, hi, rfl⟩ := List.mem_map.1 ha
      obtain ⟨j, hj, rfl⟩ := List.mem_map.1 hb
      rw [List.mem_range] at hi hj
      have h2 : 0 < g.ds2 := hds2.resolve_left (by omega)
      have : (i : ℝ) ≤ n1 - 1 := by
        have : i + 1 ≤ n1 := hi
        have : ((i + 1 : ℕ) : ℝ) ≤ n1 := by exact_mod_cast this
        push_cast at this; linarith
      have hj0 : (0:ℝ) ≤ j := by positivity
      nlinarith
  · obtain ⟨n, rfl⟩ : ∃ n, n1 = n + 1 := ⟨n1 - 1, by omega⟩
    rw [List.range_succ_eq_map, List.map_cons, List.cons_append, Nat.cast_zero, zero_mul, add_zero]
    exact ⟨_, rfl⟩

/-- **C46** (two-leg grids) The rows are the distances of the grid, each with the requested confidence levels in order; the distances
start at `D0` and increase strictly. -/
theorem C46_grid {qt ql : Int} {qc : List Int} {g : Grid ℝ} {kst : Pair Int} {p r : PropSt ℝ} {rows : List (AreaRow ℝ)} (h0 : 0 < g.d0)
    (h1 : g.d0 < g.d1) (hs : 0 < g.ds1) (h : itmlogicAreaAt qt ql qc g kst p = .ok (rows, r)) :
    ∃ ds, GridOf g ds ∧ ds.Pairwise (· < ·) ∧ (∃ rest, ds = g.d0 :: rest) ∧
      rows.map (fun row => (row.distance_km, row.confidence)) = ds.flatMap fun d => qc.map fun c => (d, c) := by
  obtain ⟨zt, zl, zc, s, q, dt, -, -, hzc, hs', hq, hdt, hl⟩ := itmlogicAreaAt_ok h
  have edt : dt = g.ds1 := by
    obtain ⟨nd, -, ⟨-, e⟩ | ⟨-, e⟩⟩ := areaPlan_two h0 h1 hs
    · rw [e] at hdt; exact (Option.some.inj hdt).symm
    · rw [e] at hdt; exact (Option.some.inj hdt).symm
  rw [areaSetup_eq] at hs'
  obtain ⟨z, -, hs'⟩ := bind_eq_ok.1 hs'
  rw [pure_ok, ok_inj] at hs'
  rw [qlra_eq] at hq
  obtain ⟨⟨x, y, w⟩, -, hq⟩ := bind_eq_ok.1 hq
  dsimp only at hq
  rw [pure_ok, ok_inj, prepMarks_eq] at hq
  have hf := areaLoop_ok (cacheInv_of_five (by rw [← hq, ← hs']; simp)) (by rw [← hq]; simp) hl
  have hlab := loopRow_labels hf
  have hG := plan_grid h0 h1 hs
  rw [edt] at hlab
  refine ⟨_, hG, (gridOf_increasing hs hG).1, (gridOf_increasing hs hG).2, ?_⟩
  rw [hlab, List.map_flatMap]
  have hlen : zc.length = qc.length := by
    obtain ⟨v, hv, hlen⟩ := C04_qerfi_total (qc.map (percent : Int → ℝ))
    rw [hzc, ok_inj] at hv
    rw [hv, hlen, List.length_map]
  congr 1
  funext d
  rw [List.map_map]
  have : ((fun x : ℝ × Int × ℝ => (x.1, x.2.1)) ∘ fun c : Int × ℝ => (d, c)) = (fun c : Int => (d, c)) ∘ Prod.fst := rfl
  rw [this, ← List.map_map, List.map_fst_zip (by rw [hlen])]

/-- **C46** A start at or below zero is read as a start at the first step. -/
theorem C46_start (qt ql : Int) (qc : List Int) {g : Grid ℝ} (kst : Pair Int) (p : PropSt ℝ) (h0 : g.d0 ≤ 0) (hs : 0 < g.ds1) :
    itmlogicAreaAt qt ql qc g kst p = itmlogicAreaAt qt ql qc { g with d0 := g.ds1 } kst p := by
  have e : areaPlan g = areaPlan { g with d0 := g.ds1 } := by
    unfold areaPlan
    simp only [zero_lit, if_pos h0, if_neg (not_le.2 hs)]
  unfold itmlogicAreaAt
  rw [e]

/-- The shipped grid: 15 distances from 10 to 150 km, then 7 from 200 to 500 km, three rows each. -/
theorem C46_shipped {kst : Pair Int} {p r : PropSt ℝ} {rows : List (AreaRow ℝ)} (h : itmlogicArea gridDefault kst p = .ok (rows, r)) :
    rows.length = 66 ∧ rows.map (fun row => (row.distance_km, row.confidence)) =
      ([10, 20, 30, 40, 50, 60, 70, 80, 90, 100, 110, 120, 130, 140, 150, 200, 250, 300, 350, 400, 450, 500] : List ℝ).flatMap
        fun d => ([50, 90, 10] : List Int).map fun c => (d, c) := by
  obtain ⟨ds, ⟨n1, n2, hn1, rfl, r1, -, r2⟩, -, -, hrows⟩ := C46_grid (by norm_num [gridDefault]) (by norm_num [gridDefault]) (by norm_num [gridDefault]) h
  have e1 : n1 = 15 := by
    obtain ⟨a, b⟩ := r1
    norm_num [gridDefault] at a b
    have a' : (14:ℝ) < n1 := by linarith
    have b' : (n1:ℝ) < 16 := by linarith
    have a'' : 14 < n1 := by exact_mod_cast a'
    have b'' : n1 < 16 := by exact_mod_cast b'
    omega
  subst e1
  have e2 : n2 = 7 := by
    obtain ⟨a, b⟩ := r2 (by norm_num [gridDefault]) (by norm_num [gridDefault])
    norm_num [gridDefault] at a b
    have a' : (6:ℝ) < n2 := by linarith
    have b' : (n2:ℝ) < 8 := by linarith
    have a'' : 6 < n2 := by exact_mod_cast a'
    have b'' : n2 < 8 := by exact_mod_cast b'
    omega
  subst e2
  have e : twoLegs (gridDefault : Grid ℝ).d0 (gridDefault : Grid ℝ).ds1 15 (gridDefault : Grid ℝ).ds2 7 =
      [10, 20, 30, 40, 50, 60, 70, 80, 90, 100, 110, 120, 130, 140, 150, 200, 250, 300, 350, 400, 450, 500] := by
    unfold twoLegs gridDefault
    simp only [List.range_succ, List.range_zero, List.nil_append, List.map_cons, List.map_nil, List.cons_append]
    norm_num
  rw [e] at hrows
  refine ⟨?_, hrows⟩
  have := congrArg List.length hrows
  rw [List.length_map] at this
  rw [this]
  simp [areaQc]

/-- **C46** (refuted) A grid with positive steps whose fine leg has a single distance is never answered: `DS` is read unassigned. -/
theorem C46_refuted {qt ql : Int} {qc : List Int} {g : Grid ℝ} {kst : Pair Int} {p r : PropSt ℝ} {rows : List (AreaRow ℝ)} (h0 : 0 < g.d0)
    (h1 : g.d1 ≤ g.d0) : itmlogicAreaAt qt ql qc g kst p ≠ .ok (rows, r) := by
  intro h
  obtain ⟨zt, zl, zc, s, q, dt, -, -, -, -, -, hdt, -⟩ := itmlogicAreaAt_ok h
  unfold areaPlan at hdt
  simp only [zero_lit, if_neg (not_le.2 h0), if_pos (Or.inl h1 : g.d1 ≤ g.d0 ∨ g.ds1 ≤ 0)] at hdt
  split_ifs at hdt

/-- The exception on an otherwise good link. -/
theorem C46_unbound {p : PropSt ℝ} {g : Grid ℝ} {h : ℝ} (H : LevelArea p g h) (qt ql : Int) (qc : List Int) (kst : Pair Int) :
    itmlogicAreaAt qt ql qc { g with d1 := g.d0 } kst p = .error (.unboundLocal "DS") := by
  obtain ⟨s, q, hs, hq, -⟩ := area_prep H kst
  obtain ⟨zt, hzt, lt⟩ := C04_qerfi_total [(percent qt : ℝ)]
  obtain ⟨zl, hzl, ll⟩ := C04_qerfi_total [(percent ql : ℝ)]
  obtain ⟨zc, hzc, -⟩ := C04_qerfi_total (qc.map (percent : Int → ℝ))
  have one : ∀ l : List ℝ, l.length = [(0:ℝ)].length → ∃ z, pyGet l 0 = .ok z := by
    intro l hl
    match l, hl with
    | [z], _ => exact ⟨z, rfl⟩
  obtain ⟨zt0, hzt0⟩ := one zt lt
  obtain ⟨zl0, hzl0⟩ := one zl ll
  have hds : (areaPlan { g with d1 := g.d0 }).ds = none := by
    unfold areaPlan
    simp only [zero_lit, if_neg (not_le.2 H.d0), if_pos (Or.inl le_rfl : g.d0 ≤ g.d0 ∨ g.ds1 ≤ 0)]
    split_ifs <;> rfl
  unfold itmlogicAreaAt
  rw [hzt, ok_bind, hzl, ok_bind, hzc, ok_bind, hzt0, ok_bind, hzl0, ok_bind]
  dsimp only
  rw [hs, ok_bind, hq, ok_bind, hds]
  rfl

/-- **C46** (what holds) Every grid with `0 < D0 < D1` and `0 < DS1` is answered, whatever `D2` and `DS2` are, on every smooth-earth link
whose grid begins beyond the horizon.
Full statement: every grid with positive steps is answered; false, see `C46_refuted`. Links with other terrain or a grid beginning within
line of sight are not covered here. -/
theorem C46_accepted_partial {p : PropSt ℝ} {g : Grid ℝ} {h : ℝ} (H : LevelArea p g h) (kst : Pair Int) (qt ql : Int) (qc : List Int) :
    ∃ rows r, itmlogicAreaAt qt ql qc g kst p = .ok (rows, r) := area_run H kst qt ql qc

/-- The shipped run is answered for the link above, with 66 rows. -/
example : ∃ rows r, itmlogicArea gridDefault ⟨2, 2⟩ areaLink = .ok (rows, r) ∧ rows.length = 66 := by
  obtain ⟨rows, r, h⟩ := area_run areaLink_level.1 ⟨2, 2⟩ 50 50 areaQc
  exact ⟨rows, r, h, (C46_shipped h).1⟩

/-- The same link with `D1 = D0` is not. -/
example : itmlogicArea { (gridDefault : Grid ℝ) with d1 := 10.0 } ⟨2, 2⟩ areaLink = .error (.unboundLocal "DS") :=
  C46_unbound areaLink_level.1 50 50 areaQc ⟨2, 2⟩

end Itm.Props
