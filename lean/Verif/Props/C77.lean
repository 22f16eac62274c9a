import Verif.Lemmas.Chop
import Verif.Lemmas.DocsBound
import Verif.Lemmas.RunTotal
import Verif.Props.C42
import Verif.Props.C76
import Verif.Props.C78

/-! C77: the rows of the point-to-point report in rounding arithmetic. -/

namespace Itm.Props

open Itm Spec
variable {α : Type} [PyNum α] {R : Rounding α}

theorem freeSpace_round {wn dist : α} (hw : R.fin wn) (h1 : 0.01 ≤ R.val wn) (h2 : R.val wn ≤ 1e4) (hd : R.fin dist)
    (h3 : 1e3 ≤ R.val dist) (h4 : R.val dist ≤ 1e7) :
    ∃ f, freeSpace wn dist = .ok f ∧ NB R f (8.685890 * Real.log (2 * R.val wn * R.val dist)) 300 1e-12 := by
  have hw0 : 0 < R.val wn := by norm_num at *; linarith
  have hd0 : 0 < R.val dist := by norm_num at *; linarith
  obtain ⟨f2, v2⟩ := Near.lit_int R (m := 20) (s := true) (k := 1) 2 (by norm_num) (by norm_num)
  have n2 : NR R (2.0 : α) 2 2 0 0 := NR.of_eq f2 (v2.trans (by norm_num)) (by norm_num)
  have m1 := n2.mul (NR.self hw (X := 1e4) (by rw [abs_of_pos hw0]; exact h2)) (Z := 2e4) (r' := 1e-15) (t' := 1e-100) (by norm_num) (by norm_num)
    (by norm_num) (by norm_num) (by norm_num) (by norm_num) (by norm_num) (by norm_num)
  have m2 := m1.mul (NR.self hd (X := 1e7) (by rw [abs_of_pos hd0]; exact h4)) (Z := 2e11) (r' := 2.1e-15) (t' := 1e-90) (by norm_num) (by norm_num)
    (by norm_num) (by norm_num) (by norm_num) (by norm_num) (by norm_num) (by norm_num)
  have hp : 20 ≤ 2 * R.val wn * R.val dist := by
    have := mul_le_mul h1 h3 (by norm_num) hw0.le
    norm_num at *; linarith
  have hu := m2.bound
  obtain ⟨x, hx⟩ : ∃ x, x = 2 * R.val wn * R.val dist := ⟨_, rfl⟩
  rw [← hx] at m2 hp hu ⊢
  have hn : Near R (2.0 * wn * dist) x (3e-15 * x) := by
    refine ⟨m2.fin, m2.err.trans ?_⟩
    rw [abs_of_pos (by linarith)]
    norm_num at hp ⊢
    linarith
  have e : 3e-15 * x / (x - 3e-15 * x) ≤ 4e-15 := by
    have : 0 < x - 3e-15 * x := by norm_num at hp ⊢; linarith
    rw [div_le_iff₀ this]
    norm_num at hp ⊢
    linarith
  have hl : |Real.log x| ≤ 27 := by
    have e1 : (2.7182818283 : ℝ) ≤ Real.exp 1 := by have := Real.exp_one_gt_d9; norm_num at this ⊢; linarith
    have e27 : (2.7182818283 : ℝ) ^ 27 ≤ Real.exp 27 := by
      rw [show (27 : ℝ) = (27 : ℕ) * 1 by norm_num, Real.exp_nat_mul]
      exact pow_le_pow_left₀ (by norm_num) e1 27
    rw [abs_of_nonneg (Real.log_nonneg (by linarith)), Real.log_le_iff_le_exp (by linarith)]
    rw [abs_of_pos (by linarith)] at hu
    refine le_trans ?_ e27
    norm_num at hu ⊢
    linarith
  obtain ⟨h5, h6⟩ := hn.log (m := x) (M := 28) (g := 4e-14) le_rfl (by norm_num at hp ⊢; linarith)
    (by linarith) (by norm_num at e ⊢; linarith)
  have c : NB R (8.685890 : α) (8.685890 : ℝ) 9 1e-14 := NB.lit R (by norm_num) (by norm_num) (by norm_num)
  refine ⟨_, ?_, c.mul (⟨h5, hl⟩ : NB R _ _ 27 _) (by norm_num) (by norm_num) (by norm_num)⟩
  unfold freeSpace
  rw [npLog_round m2.fin h6, ok_bind, pure_ok]

/-- A sum of free-space loss and a quantile. -/
theorem row_sum {f a : α} {F : ℝ} (hf : NB R f F 300 1e-12) (ha : R.fin a) (hb : |R.val a| ≤ 1.8e5) :
    Near R (f + a) (F + R.val a) 3e-10 :=
  (hf.add (NB.self ha hb) (Z := 1.9e5) (g := 3e-10) (by norm_num) (by norm_num) (by norm_num)).toNear

theorem sized_of_range {p : PropSt α} {p' : PropSt ℝ} (h : StatRange R p) (hs : SameValues R p p') : StatSized p' := by
  obtain ⟨a, e, -, b⟩ := h.aref
  refine ⟨by rw [hs.wn.2]; exact h.wn.2, by rw [hs.dist.2]; exact h.dist.2, by rw [hs.dh.2]; exact h.dh.2, by rw [hs.he0.2]; exact h.he0.2,
    by rw [hs.he1.2]; exact h.he1.2, fun c hc => ?_⟩
  obtain ⟨a', e1, -, e2⟩ := hs.aref
  rw [e] at e1
  obtain rfl := Option.some.inj e1
  rw [e2] at hc
  obtain rfl := Option.some.inj hc
  exact b

/-- What all rows have in common. -/
theorem p2p_rows_round {qc qr : List Int} {p r : PropSt α} {profile : List α} {rows : List (P2PRow α)} {msgs : List P2PMsg}
    (h : itmlogicP2PAt qc qr p profile = .ok (rows, msgs, r)) :
    ∃ s q fs, p2pSetup p profile = .ok s ∧ qlrpfl s = .ok q ∧ q.mdvar = some 11 ∧ CacheInv q ∧ freeSpace q.wn q.dist = .ok fs ∧
      ∀ row ∈ rows, row.reliability ∈ qr ∧ row.confidence ∈ qc ∧ P2PRowFor q p.d fs row.reliability row.confidence row := by
  obtain ⟨s, q, fs, zr, zc, hs, hq, hfs, _, hzr, hzc, hr⟩ := itmlogicP2PAt_ok h
  have P := p2pPrep_ok hs hq
  have F := p2pRows_for P.inv hzr hzc hr
  rw [P.d] at F
  refine ⟨s, q, fs, hs, hq, P.mdvar, P.inv, hfs, fun row hrow => ?_⟩
  obtain ⟨x, hx, e⟩ : ∃ x ∈ pairs qr qc, P2PRowFor q p.d fs x.1 x.2 row := by
    clear hr hzr hzc h
    generalize pairs qr qc = X at F
    induction F with
    | nil => cases hrow
    | cons a _ ih =>
      rcases List.mem_cons.1 hrow with rfl | hrow
      · exact ⟨_, List.mem_cons_self, a⟩
      · obtain ⟨x, hx, e⟩ := ih hrow
        exact ⟨x, List.mem_cons_of_mem _ hx, e⟩
  obtain ⟨-, e1, e2, -⟩ := id e
  rw [e1, e2]
  unfold pairs at hx
  obtain ⟨a, ha, hx⟩ := List.mem_flatMap.1 hx
  obtain ⟨b, hb, rfl⟩ := List.mem_map.1 hx
  exact ⟨ha, hb, e⟩

theorem zero_dev (R : Rounding α) : R.fin (0.0 : α) ∧ |R.val (0.0 : α)| ≤ 10 := by
  obtain ⟨h1, h2⟩ := fin_zero R
  exact ⟨h1, by rw [h2]; norm_num⟩

/-- Deviates of percentages are finite and small, whatever run produced them. -/
theorem dev_small (R : Rounding α) {r : ℤ} {z : α} (h0 : 0 ≤ r) (h1 : r ≤ 100) (h : DeviateOf r z) : R.fin z ∧ |R.val z| ≤ 10 := by
  obtain ⟨z', e, f, b⟩ := C74_percent R r h0 h1
  have : z = z' := by have := ok_inj.1 (h.symm.trans e); exact (List.cons.inj this).1
  rw [this]
  exact ⟨f, b.trans (by norm_num)⟩

/-- In rounding arithmetic, every row of the report is within `5e-6` dB of exact arithmetic on the same link: free-space loss of the same
distance and frequency plus the exact quantile for the row's two deviates and the same reference attenuation. The link, as `qlrpfl`
leaves it, has to be of the sizes the model is meant for. -/
theorem C77_rows (R : Rounding α) {qc qr : List Int} {p r : PropSt α} {profile : List α} {rows : List (P2PRow α)} {msgs : List P2PMsg}
    (h : itmlogicP2PAt qc qr p profile = .ok (rows, msgs, r)) (hc : ∀ c ∈ qc, 0 ≤ c ∧ c ≤ 100) (hr : ∀ c ∈ qr, 0 ≤ c ∧ c ≤ 100)
    (hz : ∀ s q, p2pSetup p profile = .ok s → qlrpfl s = .ok q → StatRange R q) :
    ∃ s q, p2pSetup p profile = .ok s ∧ qlrpfl s = .ok q ∧
      ∀ p' : PropSt ℝ, SameValues R q p' → p'.lvar = 5 → ∀ row ∈ rows, ∃ zr zc b q', DeviateOf row.reliability zr ∧
        DeviateOf row.confidence zc ∧ avar (R.val zr) 0 (R.val zc) p' = .ok (b, q') ∧ R.fin row.loss ∧
        |R.val row.loss - (8.685890 * Real.log (2 * R.val q.wn * R.val q.dist) + b)| ≤ 5e-6 := by
  obtain ⟨s, q, fs, hs, hq, -, hi, hfs, H⟩ := p2p_rows_round h
  refine ⟨s, q, hs, hq, fun p' hv h5 row hrow => ?_⟩
  have Z := hz s q hs hq
  obtain ⟨m1, m2, -, -, -, zr, zc, a, q1, d1, d2, ha, el⟩ := H row hrow
  obtain ⟨f1, b1⟩ := dev_small R (hr _ m1).1 (hr _ m1).2 d1
  obtain ⟨f2, b2⟩ := dev_small R (hc _ m2).1 (hc _ m2).2 d2
  obtain ⟨f0, b0⟩ := zero_dev R
  obtain ⟨fs', e, nf⟩ := freeSpace_round Z.wn.1 Z.wn.2.1 Z.wn.2.2 Z.dist.1 Z.dist.2.1 Z.dist.2.2
  rw [hfs, ok_inj] at e
  subst e
  obtain ⟨a', q2, b, q3, e1, fa, e2, e3, e4⟩ := avar_round R hi (cacheInv_of_five (by omega : 5 ≤ p'.lvar)) hv (sized_of_range Z hv) zr 0.0 zc
    f1 b1 f0 b0 f2 b2
  rw [ha, ok_inj, Prod.mk.injEq] at e1
  obtain ⟨rfl, -⟩ := e1
  rw [(fin_zero R).2] at e2
  refine ⟨zr, zc, b, q3, d1, d2, e2, ?_⟩
  have n := row_sum nf fa e4
  rw [el]
  refine ⟨n.fin, ?_⟩
  have n1 := n.err
  rw [abs_le] at n1 e3 ⊢
  constructor <;> norm_num at n1 e3 ⊢ <;> linarith [n1.1, n1.2, e3.1, e3.2]

/-- Rounding included, of two rows with the same reliability the one with more confidence reports the strictly larger loss. -/
theorem C77_confidence (R : Rounding α) {qc qr : List Int} {p r : PropSt α} {profile : List α} {rows : List (P2PRow α)}
    {msgs : List P2PMsg} (h : itmlogicP2PAt qc qr p profile = .ok (rows, msgs, r)) (hc : ∀ c ∈ qc, 0 ≤ c ∧ c ≤ 100)
    (hr : ∀ c ∈ qr, 0 ≤ c ∧ c ≤ 100) (hz : ∀ s q, p2pSetup p profile = .ok s → qlrpfl s = .ok q → StatRange R q)
    {x y : P2PRow α} (hx : x ∈ rows) (hy : y ∈ rows) (he : x.reliability = y.reliability) (hl : x.confidence < y.confidence) :
    R.val x.loss < R.val y.loss := by
  obtain ⟨s, q, fs, hs, hq, hm, hi, hfs, H⟩ := p2p_rows_round h
  have Z := hz s q hs hq
  obtain ⟨m1, m2, -, -, -, zr, zc, a, q1, d1, d2, ha, el⟩ := H x hx
  obtain ⟨m1', m2', -, -, -, zr', zc', a', q1', d1', d2', ha', el'⟩ := H y hy
  obtain ⟨f1, b1⟩ := dev_small R (hr _ m1).1 (hr _ m1).2 d1
  obtain ⟨f2, b2⟩ := dev_small R (hc _ m2).1 (hc _ m2).2 d2
  obtain ⟨f2', b2'⟩ := dev_small R (hc _ m2').1 (hc _ m2').2 d2'
  obtain ⟨f0, b0⟩ := zero_dev R
  have ez : zr' = zr := by
    rw [← he] at d1'
    have := ok_inj.1 (d1'.symm.trans d1); exact (List.cons.inj this).1
  subst ez
  have g := C74_percent_order R _ _ zc zc' (hc _ m2).1 hl (hc _ m2').2 d2 d2'
  have k := conf_round R hi Z hm (by decide) f1 b1 f0 b0 f2 b2 f2' b2' g ha ha'
  obtain ⟨fs', e, nf⟩ := freeSpace_round Z.wn.1 Z.wn.2.1 Z.wn.2.2 Z.dist.1 Z.dist.2.1 Z.dist.2.2
  rw [hfs, ok_inj] at e
  subst e
  obtain ⟨p', h5, -, hv, -⟩ := exact_dict Z demo
  obtain ⟨_, _, _, _, e1, fa, -, -, e4⟩ := avar_round R hi (cacheInv_of_five (by omega : 5 ≤ p'.lvar)) hv (sized_of_range Z hv) zr' 0.0 zc
    f1 b1 f0 b0 f2 b2
  obtain ⟨_, _, _, _, e1', fa', -, -, e4'⟩ := avar_round R hi (cacheInv_of_five (by omega : 5 ≤ p'.lvar)) hv (sized_of_range Z hv) zr' 0.0 zc'
    f1 b1 f0 b0 f2' b2'
  rw [ha, ok_inj, Prod.mk.injEq] at e1
  rw [ha', ok_inj, Prod.mk.injEq] at e1'
  obtain ⟨rfl, -⟩ := e1
  obtain ⟨rfl, -⟩ := e1'
  have n := (row_sum nf fa e4).le
  have n' := (row_sum nf fa' e4').ge
  rw [el, el']
  norm_num at n n' k ⊢
  linarith

/-- Rounding never turns the order in reliability round by more than `1e-5` dB. -/
theorem C77_reliability (R : Rounding α) {qc qr : List Int} {p r : PropSt α} {profile : List α} {rows : List (P2PRow α)}
    {msgs : List P2PMsg} (h : itmlogicP2PAt qc qr p profile = .ok (rows, msgs, r)) (hc : ∀ c ∈ qc, 0 ≤ c ∧ c ≤ 100)
    (hr : ∀ c ∈ qr, 0 ≤ c ∧ c ≤ 100) (hz : ∀ s q, p2pSetup p profile = .ok s → qlrpfl s = .ok q → StatRange R q)
    {x y : P2PRow α} (hx : x ∈ rows) (hy : y ∈ rows) (he : x.confidence = y.confidence) (hl : x.reliability < y.reliability) :
    R.val x.loss ≤ R.val y.loss + 1e-5 := by
  obtain ⟨s, q, fs, hs, hq, hm, hi, hfs, H⟩ := p2p_rows_round h
  have Z := hz s q hs hq
  obtain ⟨m1, m2, -, -, -, zr, zc, a, q1, d1, d2, ha, el⟩ := H x hx
  obtain ⟨m1', m2', -, -, -, zr', zc', a', q1', d1', d2', ha', el'⟩ := H y hy
  obtain ⟨f1, b1⟩ := dev_small R (hr _ m1).1 (hr _ m1).2 d1
  obtain ⟨f1', b1'⟩ := dev_small R (hr _ m1').1 (hr _ m1').2 d1'
  obtain ⟨f2, b2⟩ := dev_small R (hc _ m2).1 (hc _ m2).2 d2
  obtain ⟨f0, b0⟩ := zero_dev R
  have ez : zc' = zc := by
    rw [← he] at d2'
    have := ok_inj.1 (d2'.symm.trans d2); exact (List.cons.inj this).1
  subst ez
  have g := C74_percent_order R _ _ zr zr' (hr _ m1).1 hl (hr _ m1').2 d1 d1'
  have k := time_round R hi Z hm (by decide) f1' b1' f1 b1 f0 b0 f2 b2 (by linarith) ha' ha
  obtain ⟨fs', e, nf⟩ := freeSpace_round Z.wn.1 Z.wn.2.1 Z.wn.2.2 Z.dist.1 Z.dist.2.1 Z.dist.2.2
  rw [hfs, ok_inj] at e
  subst e
  obtain ⟨p', h5, -, hv, -⟩ := exact_dict Z demo
  obtain ⟨_, _, _, _, e1, fa, -, -, e4⟩ := avar_round R hi (cacheInv_of_five (by omega : 5 ≤ p'.lvar)) hv (sized_of_range Z hv) zr 0.0 zc'
    f1 b1 f0 b0 f2 b2
  obtain ⟨_, _, _, _, e1', fa', -, -, e4'⟩ := avar_round R hi (cacheInv_of_five (by omega : 5 ≤ p'.lvar)) hv (sized_of_range Z hv) zr' 0.0 zc'
    f1' b1' f0 b0 f2 b2
  rw [ha, ok_inj, Prod.mk.injEq] at e1
  rw [ha', ok_inj, Prod.mk.injEq] at e1'
  obtain ⟨rfl, -⟩ := e1
  obtain ⟨rfl, -⟩ := e1'
  have n := (row_sum nf fa e4).le
  have n' := (row_sum nf fa' e4').ge
  rw [el, el']
  norm_num at n n' k ⊢
  linarith

/-- The dictionary of the documented run is in range. -/
theorem docs_range {p s q : PropSt ℝ} (hs : p2pSetup (p2pUser p) docsProfile = .ok s) (hq : qlrpfl s = .ok q) : StatRange realRounding q := by
  have P := p2pPrep_ok hs hq
  have u := docs_user p
  have hd : 0 < (p2pUser p).d := by rw [u.1]; norm_num
  have hl : 2 ≤ (docsProfile (α := ℝ)).length := by rw [docs_length]; norm_num
  have hg0 : 0 < (p2pUser p).hg.x0 := by rw [u.2.2.1]; norm_num
  have hg1 : 0 < (p2pUser p).hg.x1 := by rw [u.2.2.1]; norm_num
  obtain ⟨h1, h2⟩ := C78_run hd hl hg0 hg1 hs hq docs_heights
  unfold qlrpfl at hq
  obtain ⟨t, ht, hq⟩ := bind_eq_ok.1 hq
  obtain ⟨G, z, hG, hz, e⟩ := prep_link hd hl hg0 hg1 hs ht (docs_path p)
  obtain ⟨D, -⟩ := docs_link (N := 314) hG hz
  have D' : DocsLink (linkOf t) := by rw [e]; exact D
  have hdist : t.mdp = -1 ∧ t.dist = 77800 := by
    obtain ⟨xi, zg, hsys, es⟩ := p2pSetup_ok hs
    obtain ⟨exi, -⟩ := p2pSys_real hd hl hsys
    rw [docs_length, u.1] at exi
    have sp : s.pfl = { np := (docsProfile (α := ℝ)).length - 1, xi, z := docsProfile } := by rw [es]
    have hκ := (curvature_range (n := 314.0) (by norm_num) (by norm_num)).1
    obtain ⟨t', et, PR⟩ := qlrpflPrep_ok (p := s) (n := 156) (by norm_num) (by rw [sp, docs_length]; norm_num) (by rw [sp]; show 0 < xi; rw [exi]; norm_num)
      (by rw [sp, docs_length]; norm_num) (by rw [es]; exact hg0) (by rw [es]; exact hg1) (by rw [es]; show (0 : ℝ) < effCurvature 157e-9 314.0; linarith)
    rw [ht, ok_inj] at et
    subst et
    have hr := PR.rest
    refine ⟨by rw [hr], ?_⟩
    rw [hr, sp]
    show ((156 : ℕ) : ℝ) * xi = 77800
    rw [exi]; norm_num
  have ed : q.dist = 77800 := by
    rw [(setup_call (by rw [hdist.1]; norm_num) hq).1]
    unfold distOf
    rw [if_neg (by rw [hdist.1]; norm_num), hdist.2]
  have ea := C57_line_of_sight (by rw [hdist.1]; norm_num) hq (by rw [ed]; norm_num) (by rw [ed]; linarith [D'.dlsa_bounds.1])
  rw [ed] at ea
  obtain ⟨r0, r1⟩ := D'.reference_le
  obtain ⟨_, _, _, _, _, _, _, k⟩ := lrprop_frame hq
  have eh : q.he = t.he := by rw [k]; rfl
  have a1 : 240.4 ≤ t.he.x0 := D'.a1
  have a2 : t.he.x0 ≤ 240.6 := D'.a2
  have b1 : 18.3 ≤ t.he.x1 := D'.b1
  have b2 : t.he.x1 ≤ 18.5 := D'.b2
  have ew : q.wn = 41.5 / 47.7 := by rw [P.wn, u.2.1]
  refine ⟨⟨5, P.klim⟩, ⟨11, P.mdvar⟩, ⟨trivial, ?_⟩, ⟨trivial, ?_⟩, ⟨trivial, h1, ?_⟩, ⟨trivial, ?_⟩, ⟨trivial, ?_⟩, _, ea, trivial, ?_⟩
  · show 0.01 ≤ q.wn ∧ q.wn ≤ 1e4
    rw [ew]; norm_num
  · show 1e3 ≤ q.dist ∧ q.dist ≤ 1e7
    rw [ed]; norm_num
  · show q.dh ≤ 1e5
    norm_num at *; linarith
  · show 0 ≤ q.he.x0 ∧ q.he.x0 ≤ 1e4
    rw [eh]; constructor <;> norm_num at * <;> linarith
  · show 0 ≤ q.he.x1 ∧ q.he.x1 ≤ 1e4
    rw [eh]; constructor <;> norm_num at * <;> linarith
  · show |(linkOf t).reference 77800| ≤ 1e5
    rw [abs_of_nonneg r0]; norm_num at *; linarith

/-- The hypotheses are met by the documented run in exact arithmetic, for the levels of the shipped program. -/
example (p : PropSt ℝ) : (∃ rows msgs r, itmlogicP2PAt p2pQc p2pQr (p2pUser p) docsProfile = .ok (rows, msgs, r)) ∧
    (∀ c ∈ p2pQc, 0 ≤ c ∧ c ≤ 100) ∧ (∀ c ∈ p2pQr, 0 ≤ c ∧ c ≤ 100) ∧
    ∀ s q, p2pSetup (p2pUser p) docsProfile = .ok s → qlrpfl s = .ok q → StatRange realRounding q :=
  ⟨docs_answered _ _ p, by decide, by decide, fun _ _ hs hq => docs_range hs hq⟩

end Itm.Props
