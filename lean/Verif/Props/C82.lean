import Verif.Props.C77
import Verif.Props.C80

/-! C82: the rows of the area report in rounding arithmetic, and the bands of C80 in rounding arithmetic. -/

namespace Itm.Props
open Itm Spec
variable {α : Type} [PyNum α] {R : Rounding α}

/-! ### Deviates -/

theorem deviate_low : ∃ u : ℝ, u ≤ 3.06 ∧ qerfi [(0.0099 : ℝ)] = .ok [u] := by
  refine ⟨_, ?_, qerfi_single _⟩
  rw [if_neg (by norm_num)]
  have hc : clipq 0.0099 = 0.0099 := by unfold clipq; norm_num
  rw [hc]
  have hl : Real.log (10000 / 99) ≤ 4.64 := by
    have := log_upper (y := 10000 / 99) 3 20 (by norm_num) (by norm_num) (by norm_num)
    refine this.trans ?_
    norm_num
  have hd : devt 0.0099 ≤ 3.05 := by
    unfold devt
    refine (dev_le_self (Real.sqrt_nonneg _)).trans ?_
    rw [Real.sqrt_le_iff]
    refine ⟨by norm_num, ?_⟩
    rw [show (0.0099 : ℝ) = (10000 / 99)⁻¹ by norm_num, Real.log_inv]
    norm_num at *
    linarith
  have := round4_near (devt 0.0099)
  rw [abs_le] at this
  norm_num at *
  linarith [this.2]

/-- In rounding arithmetic the deviates of levels from 1 to 99 percent stay below the limit `avar` warns of. -/
theorem deviate_usual_round (R : Rounding α) {x : ℤ} {z : α} (h1 : 1 ≤ x) (h99 : x ≤ 99) (h : DeviateOf x z) : R.fin z ∧ |R.val z| ≤ 3.1 := by
  obtain ⟨f, v⟩ := percent_round (α := α) R (by omega : 0 ≤ x) (by omega : x ≤ 100)
  obtain ⟨b0, b1, b2⟩ := percent_bounds R (by omega : 0 ≤ x) (by omega : x ≤ 100)
  rw [← v] at b0 b1 b2
  obtain ⟨z', w, e1, e2, e3, e4⟩ := C74_qerfi R _ f b0 b1
  obtain rfl : z = z' := by
    unfold DeviateOf at h
    have := ok_inj.1 (h.symm.trans e1); exact (List.cons.inj this).1
  refine ⟨e2, ?_⟩
  obtain ⟨u, hu, eu⟩ := deviate_low
  have eu' := C05_qerfi_antisymmetric _ _ eu
  have a1 : (1 : ℝ) ≤ x := by exact_mod_cast h1
  have a2 : (x : ℝ) ≤ 99 := by exact_mod_cast h99
  rw [abs_le] at b2 e4
  have c1 := C05_qerfi_antitone _ _ _ _ (by norm_num at b2 ⊢; linarith [b2.1]) eu e3
  have c2 := C05_qerfi_antitone _ _ _ _ (by norm_num at b2 ⊢; linarith [b2.2]) e3 eu'
  rw [abs_le]
  norm_num at e4 hu ⊢
  constructor <;> linarith [e4.1, e4.2]

/-! ### One quantile -/

theorem nonneg_max {x : α} (h : R.fin (pyMax x 0.0)) : 0 ≤ R.val (pyMax x 0.0) := by
  obtain ⟨f0, v0⟩ := fin_zero R
  unfold pyMax at h ⊢
  split_ifs at h ⊢ with hx
  · rw [v0]
  · rw [R.lt _ _ h f0, v0, not_lt] at hx
    exact hx

/-- Reference attenuations of successful calls are of the form `max(x, 0)`. -/
theorem aref_clamped {d : α} {p q : PropSt α} (h : lrprop d p = .ok q) : ∃ x, q.aref = some (pyMax x 0.0) := by
  have key : ∀ {r : PropSt α}, lrRun d r = .ok q → ∃ x, q.aref = some (pyMax x 0.0) := by
    intro r h
    unfold lrRun at h
    obtain ⟨p1, h1, h⟩ := bind_eq_ok.1 h
    obtain ⟨p2, h2, h⟩ := bind_eq_ok.1 h
    obtain ⟨p3, h3, h⟩ := bind_eq_ok.1 h
    unfold lrClamp at h
    obtain ⟨a, _, h⟩ := bind_eq_ok.1 h
    rw [pure_ok, ok_inj] at h
    rw [← h]
    exact ⟨_, rfl⟩
  unfold lrprop at h
  dsimp only at h
  split_ifs at h with hm
  · obtain ⟨p1, h1, h⟩ := bind_eq_ok.1 h
    exact key h
  · exact key h

/-- The band of C80 for one row in rounding arithmetic. -/
theorem band_round (R : Rounding α) {q q' : PropSt α} {zt zl zc a fs ar : α} {md : ℤ} (hi : CacheInv q) (Z : StatRange R q) (hmd : q.mdvar = some md)
    (hfs : freeSpace q.wn q.dist = .ok fs) (har : q.aref = some ar) (h0 : 0 ≤ R.val ar) (ht : R.fin zt) (ht' : |R.val zt| ≤ 3.1) (hl : R.fin zl)
    (hl' : |R.val zl| ≤ 3.1) (hc : R.fin zc) (hc' : |R.val zc| ≤ 3.1) (h : avar zt zl zc q = .ok (a, q')) :
    (8.685890 * Real.log (2 * R.val q.wn * R.val q.dist) - 24.00001 ≤ R.val (fs + a) ∧
      R.val (fs + a) ≤ 8.685890 * Real.log (2 * R.val q.wn * R.val q.dist) + R.val ar + 160.00001) ∧
    ((decodeMode md).1.wl = true → 8.685890 * Real.log (2 * R.val q.wn * R.val q.dist) - 21.00001 ≤ R.val (fs + a) ∧
      R.val (fs + a) ≤ 8.685890 * Real.log (2 * R.val q.wn * R.val q.dist) + R.val ar + 130.00001) := by
  obtain ⟨p', h5, hm', hv, -⟩ := exact_dict Z demo
  have w : ∀ {x : ℝ}, |x| ≤ 3.1 → |x| ≤ 10 := fun hx => hx.trans (by norm_num)
  obtain ⟨_, _, b, q3, e1, fa, e2, e3, e4⟩ := avar_round R hi (cacheInv_of_five (by omega : 5 ≤ p'.lvar)) hv (sized_of_range Z hv) zt zl zc
    ht (w ht') hl (w hl') hc (w hc')
  rw [h, ok_inj, Prod.mk.injEq] at e1
  obtain ⟨rfl, -⟩ := e1
  obtain ⟨ar', k1, -, k2⟩ := hv.aref
  rw [har] at k1
  obtain rfl := Option.some.inj k1
  obtain ⟨B, -⟩ := avar_band (cacheInv_of_five (by omega : 5 ≤ p'.lvar)) e2 k2 h0 (hm'.trans hmd)
    (by rw [hv.dist.2]; have := Z.dist.2.1; norm_num at this ⊢; linarith) (.inl (by rw [hv.dh.2]; exact Z.dh.2.1))
  obtain ⟨B1, B2⟩ := B ht' hl' hc'
  obtain ⟨fs', e, nf⟩ := freeSpace_round Z.wn.1 Z.wn.2.1 Z.wn.2.2 Z.dist.1 Z.dist.2.1 Z.dist.2.2
  rw [hfs, ok_inj] at e
  subst e
  have n := (row_sum nf fa e4).err
  rw [abs_le] at n e3
  norm_num at n e3 ⊢
  refine ⟨?_, fun hw => ?_⟩
  · constructor <;> linarith [n.1, n.2, e3.1, e3.2]
  · obtain ⟨B1, B2⟩ := B2 hw
    constructor <;> linarith [n.1, n.2, e3.1, e3.2]

/-- **C82** (point to point) Rounding included: whatever `p2p.py` prints for levels from 1 to 99 percent lies between the free-space loss less 21 dB and
that plus the reference attenuation plus 130 dB, up to `1e-5` dB. -/
theorem C82_p2p (R : Rounding α) {qc qr : List Int} {p r : PropSt α} {profile : List α} {rows : List (P2PRow α)} {msgs : List P2PMsg}
    (h : itmlogicP2PAt qc qr p profile = .ok (rows, msgs, r)) (hc : ∀ c ∈ qc, 1 ≤ c ∧ c ≤ 99) (hr : ∀ c ∈ qr, 1 ≤ c ∧ c ≤ 99)
    (hz : ∀ s q, p2pSetup p profile = .ok s → qlrpfl s = .ok q → StatRange R q) :
    ∃ s q ar, p2pSetup p profile = .ok s ∧ qlrpfl s = .ok q ∧ q.aref = some ar ∧ 0 ≤ R.val ar ∧ ∀ row ∈ rows,
      8.685890 * Real.log (2 * R.val q.wn * R.val q.dist) - 21.00001 ≤ R.val row.loss ∧
      R.val row.loss ≤ 8.685890 * Real.log (2 * R.val q.wn * R.val q.dist) + R.val ar + 130.00001 := by
  obtain ⟨s, q, fs, hs, hq, hm, hi, hfs, H⟩ := p2p_rows_round h
  have Z := hz s q hs hq
  have hq' := hq
  unfold qlrpfl at hq'
  obtain ⟨t, -, hq'⟩ := bind_eq_ok.1 hq'
  obtain ⟨x, hx⟩ := aref_clamped hq'
  have fx : R.fin (pyMax x 0.0) := by
    obtain ⟨a, ha, fa, -⟩ := Z.aref
    rw [hx] at ha
    rw [Option.some.inj ha]; exact fa
  refine ⟨s, q, _, hs, hq, hx, nonneg_max fx, fun row hrow => ?_⟩
  obtain ⟨m1, m2, -, -, -, zr, zc, a, q1, d1, d2, ha, el⟩ := H row hrow
  obtain ⟨f1, b1⟩ := deviate_usual_round R (hr _ m1).1 (hr _ m1).2 d1
  obtain ⟨f2, b2⟩ := deviate_usual_round R (hc _ m2).1 (hc _ m2).2 d2
  obtain ⟨f0, v0⟩ := fin_zero R
  rw [el]
  exact (band_round R hi Z hm hfs hx (nonneg_max fx) f1 b1 f0 (by rw [v0]; norm_num) f2 b2 ha).2 rfl

/-! ### The area runner -/

/-- What the rows of one distance have in common: the dictionary they are computed from. -/
structure AreaGroup (p : PropSt α) (zt zl : α) (zc : List (Int × α)) (d : α) (g : PropSt α × List (AreaRow α)) : Prop where
  inv : CacheInv g.1
  wn : g.1.wn = p.wn
  dh : g.1.dh = p.dh
  he : g.1.he = p.he
  mdvar : g.1.mdvar = p.mdvar
  dist : g.1.dist = d * 1000.0
  aref : ∃ x, g.1.aref = some (pyMax x 0.0)
  rows : ∃ fs, freeSpace g.1.wn g.1.dist = .ok fs ∧ List.Forall₂ (fun c row => row.distance_km = d ∧ row.confidence = c.1 ∧
    ∃ a q', avar zt zl c.2 g.1 = .ok (a, q') ∧ row.loss = fs + a) zc g.2

theorem areaLoop_groups {zt zl : α} {zc : List (Int × α)} {ndc : Int} {ds2 : α} {k : Nat} {jd : Int} {d dt : α} {p r : PropSt α}
    {rows : List (AreaRow α)} (hi : CacheInv p) (hm : 0 ≤ p.mdp) (h : areaLoop zt zl zc ndc ds2 k jd d dt p = .ok (rows, r)) :
    ∃ G, rows = G.flatMap Prod.snd ∧ List.Forall₂ (AreaGroup p zt zl zc) (gridDist ndc ds2 k jd d dt) G := by
  induction k generalizing jd d dt p rows with
  | zero =>
    unfold areaLoop at h
    rw [pure_ok, ok_inj] at h
    obtain ⟨rfl, rfl⟩ := Prod.mk.inj h
    exact ⟨[], rfl, .nil⟩
  | succ k ih =>
    unfold areaLoop at h
    obtain ⟨q, hq, h⟩ := bind_eq_ok.1 h
    obtain ⟨fs, hfs, h⟩ := bind_eq_ok.1 h
    obtain ⟨⟨r1, q1⟩, h1, h⟩ := bind_eq_ok.1 h
    obtain ⟨⟨r2, q2⟩, h2, h⟩ := bind_eq_ok.1 h
    dsimp only at h
    rw [pure_ok, ok_inj] at h
    obtain ⟨rfl, rfl⟩ := Prod.mk.inj h
    have hiq : CacheInv q := cacheInv_lrFrame (hi.raise (n := max 1 p.lvar) (by omega)) (by simp only; omega) (lrprop_frame hq)
    have hdq := lrprop_dist hq
    have hm' : (0:Int) ≤ ({ p with lvar := max 1 p.lvar } : PropSt α).mdp := hm
    rw [if_pos hm', if_pos hm'] at hdq
    have hp : q.wn = p.wn ∧ q.dh = p.dh ∧ q.he = p.he ∧ q.mdvar = p.mdvar := by
      obtain ⟨_, _, _, _, _, _, _, rfl⟩ := lrprop_frame hq
      exact ⟨rfl, rfl, rfl, rfl⟩
    obtain ⟨⟨i1, k1, f1⟩, g1⟩ := areaInner_ok hiq h1
    have hp1 : (q1.wn = p.wn ∧ q1.dh = p.dh ∧ q1.he = p.he ∧ q1.mdvar = p.mdvar) ∧ 0 ≤ q1.mdp := by
      obtain ⟨_, _, _, _, _, _, _, _, rfl⟩ := f1
      exact ⟨hp, hdq.2.ge⟩
    obtain ⟨G, eG, hG⟩ := ih i1 hp1.2 h2
    unfold gridDist
    refine ⟨(q, r1) :: G, by rw [List.flatMap_cons, eG], .cons ⟨hiq, hp.1, hp.2.1, hp.2.2.1, hp.2.2.2, hdq.1, aref_clamped hq, fs, hfs, ?_⟩ (hG.imp fun d g H => ?_)⟩
    · refine g1.imp fun c row hr => ?_
      obtain ⟨e1, e2, a, e3, e4⟩ := hr
      obtain ⟨q', hq'⟩ := ans_avar hiq e3
      exact ⟨e1, e2, a, q', hq', e4⟩
    · exact ⟨H.inv, H.wn.trans hp1.1.1, H.dh.trans hp1.1.2.1, H.he.trans hp1.1.2.2.1, H.mdvar.trans hp1.1.2.2.2, H.dist, H.aref, H.rows⟩

/-- What rounding leaves of the rows of one distance, the dictionary `q` they are computed from being of the usual sizes. -/
structure RoundRows (R : Rounding α) (qt ql : Int) (q : PropSt α) (rows : List (AreaRow α)) : Prop where
  /-- each within `5e-6` dB of exact arithmetic on the same dictionary -/
  near : ∀ p' : PropSt ℝ, SameValues R q p' → p'.lvar = 5 → ∀ row ∈ rows, ∃ zt zl zc b q', DeviateOf qt zt ∧ DeviateOf ql zl ∧
    DeviateOf row.confidence zc ∧ avar (R.val zt) (R.val zl) (R.val zc) p' = .ok (b, q') ∧ R.fin row.loss ∧
    |R.val row.loss - (8.685890 * Real.log (2 * R.val q.wn * R.val q.dist) + b)| ≤ 5e-6
  /-- strictly ordered by confidence -/
  order : ∀ x ∈ rows, ∀ y ∈ rows, x.confidence < y.confidence → R.val x.loss < R.val y.loss
  /-- within the band around free space -/
  band : 1 ≤ qt → qt ≤ 99 → 1 ≤ ql → ql ≤ 99 → ∃ ar, q.aref = some ar ∧ 0 ≤ R.val ar ∧ ∀ row ∈ rows, 1 ≤ row.confidence → row.confidence ≤ 99 →
    8.685890 * Real.log (2 * R.val q.wn * R.val q.dist) - 24.00001 ≤ R.val row.loss ∧
    R.val row.loss ≤ 8.685890 * Real.log (2 * R.val q.wn * R.val q.dist) + R.val ar + 160.00001

/-- **C82** (area) In rounding arithmetic, the rows of an area run come in groups, one for each distance of the grid. The dictionary behind a group has
the user's frequency and irregularity and the group's distance. If it is of the usual sizes, every row of the group is within `5e-6` dB of exact
arithmetic on the same dictionary, more confidence reports strictly more loss, and no loss leaves the band of C80 by more than `1e-5` dB. -/
theorem C82_area (R : Rounding α) {qt ql : Int} {qc : List Int} {g : Grid α} {kst : Pair Int} {p r : PropSt α} {rows : List (AreaRow α)}
    (h : itmlogicAreaAt qt ql qc g kst p = .ok (rows, r)) (ht : 0 ≤ qt ∧ qt ≤ 100) (hl : 0 ≤ ql ∧ ql ≤ 100) (hc : ∀ c ∈ qc, 0 ≤ c ∧ c ≤ 100) :
    ∃ G : List (PropSt α × List (AreaRow α)), rows = G.flatMap Prod.snd ∧ ∀ x ∈ G, x.1.wn = p.fmhz / 47.7 ∧ x.1.dh = p.dh ∧
      x.2.map AreaRow.confidence = qc ∧ (∀ row ∈ x.2, x.1.dist = row.distance_km * 1000.0) ∧ (StatRange R x.1 → RoundRows R qt ql x.1 x.2) := by
  obtain ⟨zt, zl, zc, s, q, dt, dt', dl', hzc, hs, hq, -, hloop⟩ := itmlogicAreaAt_ok h
  rw [qlra_eq] at hq
  obtain ⟨⟨x, y, w⟩, -, hq⟩ := bind_eq_ok.1 hq
  dsimp only at hq
  rw [pure_ok, ok_inj, prepMarks_eq] at hq
  rw [areaSetup_eq] at hs
  obtain ⟨z, -, hs⟩ := bind_eq_ok.1 hs
  rw [pure_ok, ok_inj] at hs
  have hi : CacheInv q := cacheInv_of_five (by rw [← hq, ← hs]; simp)
  have hmd : q.mdvar = some 3 := by rw [← hq, ← hs]; simp
  have hw : q.wn = p.fmhz / 47.7 := by rw [← hq, ← hs]
  have hdh : q.dh = p.dh := by rw [← hq, ← hs]
  obtain ⟨G, eG, hG⟩ := areaLoop_groups hi (by rw [← hq]; simp) hloop
  refine ⟨G, eG, fun u hu => ?_⟩
  obtain ⟨d, -, A⟩ := forall₂_right hG hu
  obtain ⟨fs, hfs, F⟩ := A.rows
  have Zd := zip_deviates hzc
  have hrow : ∀ row ∈ u.2, row.distance_km = d ∧ ∃ zc a q', row.confidence ∈ qc ∧ DeviateOf row.confidence zc ∧ avar zt zl zc u.1 = .ok (a, q') ∧
      row.loss = fs + a := by
    intro row hr
    obtain ⟨c, hc', e1, e2, a, q', e3, e4⟩ := forall₂_right F hr
    obtain ⟨x, hx, e5, e6⟩ := forall₂_right Zd hc'
    exact ⟨e1, c.2, a, q', by rw [e2, e5]; exact hx, by rw [e2, e5]; exact e6, e3, e4⟩
  refine ⟨A.wn.trans hw, A.dh.trans hdh, ?_, fun row hr => by rw [(hrow row hr).1]; exact A.dist, fun Z => ⟨?_, ?_, ?_⟩⟩
  · have : ∀ {l : List (Int × α)} {m : List (AreaRow α)} {n : List Int}, List.Forall₂ (fun x y => y.1 = x ∧ DeviateOf x y.2) n l →
        List.Forall₂ (fun (c : Int × α) (row : AreaRow α) => row.distance_km = d ∧ row.confidence = c.1 ∧
          ∃ a q', avar zt zl c.2 u.1 = .ok (a, q') ∧ row.loss = fs + a) l m → m.map AreaRow.confidence = n := by
      intro l m n h1 h2
      induction h1 generalizing m with
      | nil => cases h2; rfl
      | cons e _ ih =>
        cases h2 with
        | cons f g => rw [List.map_cons, ih g, f.2.1, e.1]
    exact this Zd F
  · intro p' hv h5 row hr
    obtain ⟨-, zc, a, q', m, d2, ha, el⟩ := hrow row hr
    obtain ⟨f1, b1⟩ := dev_small R ht.1 ht.2 dt'
    obtain ⟨f0, b0⟩ := dev_small R hl.1 hl.2 dl'
    obtain ⟨f2, b2⟩ := dev_small R (hc _ m).1 (hc _ m).2 d2
    obtain ⟨fs', e, nf⟩ := freeSpace_round Z.wn.1 Z.wn.2.1 Z.wn.2.2 Z.dist.1 Z.dist.2.1 Z.dist.2.2
    rw [hfs, ok_inj] at e
    subst e
    obtain ⟨a', q2, b, q3, e1, fa, e2, e3, e4⟩ := avar_round R A.inv (cacheInv_of_five (by omega : 5 ≤ p'.lvar)) hv (sized_of_range Z hv) zt zl zc
      f1 b1 f0 b0 f2 b2
    rw [ha, ok_inj, Prod.mk.injEq] at e1
    obtain ⟨rfl, -⟩ := e1
    refine ⟨zt, zl, zc, b, q3, dt', dl', d2, e2, ?_⟩
    have n := row_sum nf fa e4
    rw [el]
    refine ⟨n.fin, ?_⟩
    have n1 := n.err
    rw [abs_le] at n1 e3 ⊢
    constructor <;> norm_num at n1 e3 ⊢ <;> linarith [n1.1, n1.2, e3.1, e3.2]
  · intro x hx y hy hlt
    obtain ⟨-, zc, a, q', m, d2, ha, el⟩ := hrow x hx
    obtain ⟨-, zc', a', q'', m', d2', ha', el'⟩ := hrow y hy
    obtain ⟨f1, b1⟩ := dev_small R ht.1 ht.2 dt'
    obtain ⟨f0, b0⟩ := dev_small R hl.1 hl.2 dl'
    obtain ⟨f2, b2⟩ := dev_small R (hc _ m).1 (hc _ m).2 d2
    obtain ⟨f2', b2'⟩ := dev_small R (hc _ m').1 (hc _ m').2 d2'
    have g := C74_percent_order R _ _ zc zc' (hc _ m).1 hlt (hc _ m').2 d2 d2'
    have k := conf_round R A.inv Z (A.mdvar.trans hmd) (by decide) f1 b1 f0 b0 f2 b2 f2' b2' g ha ha'
    obtain ⟨fs', e, nf⟩ := freeSpace_round Z.wn.1 Z.wn.2.1 Z.wn.2.2 Z.dist.1 Z.dist.2.1 Z.dist.2.2
    rw [hfs, ok_inj] at e
    subst e
    obtain ⟨p', h5, -, hv, -⟩ := exact_dict Z demo
    obtain ⟨_, _, _, _, e1, fa, -, -, e4⟩ := avar_round R A.inv (cacheInv_of_five (by omega : 5 ≤ p'.lvar)) hv (sized_of_range Z hv) zt zl zc
      f1 b1 f0 b0 f2 b2
    obtain ⟨_, _, _, _, e1', fa', -, -, e4'⟩ := avar_round R A.inv (cacheInv_of_five (by omega : 5 ≤ p'.lvar)) hv (sized_of_range Z hv) zt zl zc'
      f1 b1 f0 b0 f2' b2'
    rw [ha, ok_inj, Prod.mk.injEq] at e1
    rw [ha', ok_inj, Prod.mk.injEq] at e1'
    obtain ⟨rfl, -⟩ := e1
    obtain ⟨rfl, -⟩ := e1'
    have n := (row_sum nf fa e4).le
    have n' := (row_sum nf fa' e4').ge
    rw [el, el']
    norm_num at n n' k ⊢
    linarith
  · intro t1 t2 l1 l2
    obtain ⟨x, hx⟩ := A.aref
    have fx : R.fin (pyMax x 0.0) := by
      obtain ⟨a, ha, fa, -⟩ := Z.aref
      rw [hx] at ha
      rw [Option.some.inj ha]; exact fa
    refine ⟨_, hx, nonneg_max fx, fun row hr c1 c2 => ?_⟩
    obtain ⟨-, zc, a, q', m, d2, ha, el⟩ := hrow row hr
    obtain ⟨f1, b1⟩ := deviate_usual_round R t1 t2 dt'
    obtain ⟨f0, b0⟩ := deviate_usual_round R l1 l2 dl'
    obtain ⟨f2, b2⟩ := deviate_usual_round R c1 c2 d2
    rw [el]
    exact (band_round R A.inv Z (A.mdvar.trans hmd) hfs hx (nonneg_max fx) f1 b1 f0 b0 f2 b2 ha).1

/-! ### Cases -/

/-- The documented run, in exact arithmetic, for the levels of the shipped program. -/
example (p : PropSt ℝ) : (∃ rows msgs r, itmlogicP2PAt p2pQc p2pQr (p2pUser p) docsProfile = .ok (rows, msgs, r)) ∧
    (∀ c ∈ p2pQc, 1 ≤ c ∧ c ≤ 99) ∧ (∀ c ∈ p2pQr, 1 ≤ c ∧ c ≤ 99) ∧
    ∀ s q, p2pSetup (p2pUser p) docsProfile = .ok s → qlrpfl s = .ok q → StatRange realRounding q :=
  ⟨docs_answered _ _ p, by decide, by decide, fun _ _ hs hq => docs_range hs hq⟩

/-- An answered area run. -/
example : ∃ rows r, itmlogicAreaAt 50 50 areaQc gridDefault ⟨2, 2⟩ areaLink = .ok (rows, r) ∧ ∃ G : List (PropSt ℝ × List (AreaRow ℝ)),
    rows = G.flatMap Prod.snd ∧ ∀ x ∈ G, x.2.map AreaRow.confidence = areaQc ∧ (StatRange realRounding x.1 → RoundRows realRounding 50 50 x.1 x.2) := by
  obtain ⟨rows, r, h⟩ := C46_accepted_partial areaLink_level.1 ⟨2, 2⟩ 50 50 areaQc
  obtain ⟨G, e, H⟩ := C82_area realRounding h (by norm_num) (by norm_num) (by decide)
  exact ⟨rows, r, h, G, e, fun x hx => ⟨(H x hx).2.2.1, (H x hx).2.2.2.2⟩⟩

end Itm.Props
