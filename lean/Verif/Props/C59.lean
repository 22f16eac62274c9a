import Verif.Spec.Program
import Verif.Lemmas.ScatExact
import Verif.Props.C56
import Verif.Props.C57
import Verif.Props.C58
import Verif.Props.C06
import Verif.Props.C47

/-! C59: what the runners report is the published loss of the link the user described. -/

namespace Itm.Props
open Itm Itm.Spec

/-! ### Quantile of a dictionary with valid caches -/

theorem quantile_inv {p : PropSt ℝ} {a zt zl zc ar : ℝ} {k md m : ℤ} {noLoc noSit : Bool} (hi : CacheInv p)
    (hk : p.klim.map fixKlim = some k) (hc : ClimateCode k) (hmd : p.mdvar = some md) (hm : ModeCode md m noLoc noSit)
    (har : p.aref = some ar) (h : freshAns zt zl zc p = .ok a) :
    a = quantile k m noLoc noSit p.dist p.dh p.he.x0 p.he.x1 p.wn ar zt zl zc := by
  obtain ⟨q, h⟩ := ans_avar hi h
  obtain ⟨c, m', g, x, v, ar', k', md', hf, har', hk', hmd', hm', hcg, hw, hx, g1, g2, hvc, hvg, rfl⟩ := avar_real hi h
  rw [hk'] at hk; rw [hmd] at hmd'; rw [har] at har'
  have hfk : fixKlim k' = k := by simpa using hk
  obtain rfl := Option.some.inj hmd'
  obtain rfl := Option.some.inj har'
  obtain ⟨h1, h2, h3, h4⟩ := freshSetup_formula hk' hfk hc hf
  rw [decodeMode_valid hm] at hm'
  subst hm'
  rw [devR_formula h2 h3 h4, h1]
  rfl

theorem freeSpace_real {w d fs : ℝ} (h : freeSpace w d = .ok fs) : fs = 8.685890 * Real.log (2 * w * d) := by
  unfold freeSpace at h
  obtain ⟨l, hl, h⟩ := bind_eq_ok.1 h
  obtain ⟨-, rfl⟩ := npLog_eq_ok.1 hl
  rw [pure_ok, ok_inj] at h
  rw [← h, two_lit]

theorem effCurvature_real (N : ℝ) : effCurvature 157e-9 N = curvature N := by
  unfold effCurvature curvature
  rw [rexp, one_lit]

theorem forall₂_mem {β γ : Type} {R : β → γ → Prop} {X : List β} {Y : List γ} (h : List.Forall₂ R X Y) : ∀ y ∈ Y, ∃ x ∈ X, R x y := by
  induction h with
  | nil => simp
  | @cons x y _ _ hd _ ih =>
    intro y' hy
    rcases List.mem_cons.1 hy with rfl | hy
    · exact ⟨x, by simp, hd⟩
    · obtain ⟨x', hx, h⟩ := ih y' hy
      exact ⟨x', by simp [hx], h⟩

theorem forall₂_and {β γ : Type} {R S : β → γ → Prop} {X : List β} {Y : List γ} (h : List.Forall₂ R X Y) (h' : List.Forall₂ S X Y) :
    List.Forall₂ (fun x y => R x y ∧ S x y) X Y := by
  induction h with
  | nil => exact .nil
  | cons hd _ ih =>
    cases h' with
    | cons hd' ht' => exact .cons ⟨hd, hd'⟩ (ih ht')

/-! ### Area -/

theorem qlraHe_real (k : ℤ) (hg dh : ℝ) : qlraHe k hg dh = sitedHeight k hg dh := by
  unfold qlraHe sitedHeight
  by_cases h0 : k ≤ 0
  · rw [if_pos h0, if_pos h0]
  · rw [if_neg h0, if_neg h0]
    simp only [pyMax_real, pyMin_real, rexp, rsin, two_lit, five_lit, one_lit]
    have e9 : (9.0 : ℝ) = 9 := by norm_num
    have e4 : (4.0 : ℝ) = 4 := by norm_num
    have e20 : (20.0 : ℝ) = 20 := by norm_num
    rw [e9, e4, e20]
    by_cases h1 : k = 1 <;> by_cases h5 : hg < 5 <;> simp [h1, h5]

/-- **C38** The effective heights of `qlra` are those of the siting formula. -/
theorem C38_heights {kst : Pair ℤ} {p q : PropSt ℝ} (h : qlra kst p = .ok q) :
    q.he.x0 = sitedHeight kst.x0 p.hg.x0 p.dh ∧ q.he.x1 = sitedHeight kst.x1 p.hg.x1 p.dh := by
  unfold qlra at h
  obtain ⟨⟨v1, v2⟩, -, h⟩ := bind_eq_ok.1 h
  obtain ⟨⟨w1, w2⟩, -, h⟩ := bind_eq_ok.1 h
  dsimp only at h
  rw [pure_ok, ok_inj] at h
  rw [← h, (prepMarks_marked _).rest]
  exact ⟨qlraHe_real _ _ _, qlraHe_real _ _ _⟩

/-- Any call at a far distance after the first. -/
theorem cont_reference {b q r : PropSt ℝ} {s : Setup ℝ} {D : ℝ} (hm : 0 < b.mdp) (hs : setupC b.mdp (inp b) = .ok s) (I : SInv b s q)
    (h : lrprop D q = .ok r) (hD : (linkOf b).dlsa ≤ D) (h5 : (linkOf b).ScatterOk (linkOf b).d5)
    (h6 : (linkOf b).ScatterOk (linkOf b).d6) : r.aref = some ((linkOf b).reference D) := by
  obtain ⟨_, ⟨e1, _⟩, _⟩ := line_spec hs
  have hD' : s.h.dlsa ≤ D := by rw [e1]; exact hD
  have e := arefOf_cont I D
  rw [runC_far I.cache hD', ← runC_far (freshCInv _ _ _ (cacheOf b)) hD', ← arefOf_setup hm hs] at e
  rw [show arefOf (lrprop D q) = .ok r.aref by rw [h]; rfl] at e
  obtain ⟨q', h', ha⟩ := map_ok.1 e.symm
  have hd : q'.dist = D := by
    rw [(setup_call (by omega) h').1]; unfold distOf; rw [if_pos (by omega)]
  rw [← ha, ← hd]
  exact C57_beyond (by omega) h' (.inr (by rw [hd]; exact hD)) h5 h6

theorem first_reference {b q : PropSt ℝ} {D : ℝ} (hm : 0 < b.mdp) (h0 : 0 < D) (h : lrprop D b = .ok q)
    (hr : (linkOf b).Regular D) : q.aref = some ((linkOf b).reference D) := by
  have hd : q.dist = D := by
    rw [(setup_call (by omega) h).1]; unfold distOf; rw [if_pos (by omega)]
  rw [← hd]
  by_cases c : q.dist < (linkOf b).dlsa
  · exact C57_line_of_sight (by omega) h (by rw [hd]; exact h0) c
  · rcases hr with hr | hr
    · rw [hd] at c; exact absurd hr.2 c
    · exact C57_beyond (by omega) h (.inr (not_lt.1 c)) hr.1 hr.2

/-- A row is right. -/
def GoodRow (b : PropSt ℝ) (zt zl : ℝ) (x : ℝ × Int × ℝ) (row : AreaRow ℝ) : Prop :=
  row.distance_km = x.1 ∧ row.confidence = x.2.1 ∧
    row.loss = (linkOf b).loss 5 3 false false (1000 * x.1) zt zl x.2.2

theorem inner_good {b q q1 : PropSt ℝ} {d fs zt zl : ℝ} {zc : List (Int × ℝ)} {rows : List (AreaRow ℝ)} (hi : CacheInv q)
    (hin : inp q = inp b) (hk : q.klim.map fixKlim = some 5) (hmd : q.mdvar = some 3) (hd : q.dist = 1000 * d)
    (hfs : freeSpace q.wn q.dist = .ok fs) (har : q.aref = some ((linkOf b).reference (1000 * d)))
    (h : areaInner d fs zt zl zc q = .ok (rows, q1)) :
    List.Forall₂ (GoodRow b zt zl) (zc.map fun c => (d, c)) rows := by
  obtain ⟨-, g⟩ := areaInner_ok hi h
  rw [List.forall₂_map_left_iff]
  refine g.imp fun c row hr => ?_
  obtain ⟨e1, e2, a, e3, e4⟩ := hr
  refine ⟨e1, e2, ?_⟩
  have e := quantile_inv (m := 3) (noLoc := false) (noSit := false) hi hk ⟨by decide, by decide⟩ hmd ⟨by decide, by decide, rfl⟩ har e3
  unfold inp at hin
  injection hin with a1 a2 a3 a4 a5 a6 a7 a8 a9
  rw [e4, e, freeSpace_real hfs, hd, a5, a2, a6]
  rfl

/-- The rows of the loop after the first distance. -/
theorem loop_good {b : PropSt ℝ} {s : Setup ℝ} {zt zl : ℝ} {zc : List (Int × ℝ)} {ndc : Int} {ds2 : ℝ} (hm : 0 < b.mdp)
    (hs : setupC b.mdp (inp b) = .ok s) (h5 : (linkOf b).ScatterOk (linkOf b).d5) (h6 : (linkOf b).ScatterOk (linkOf b).d6)
    {k : ℕ} {jd : Int} {d dt : ℝ} {p r : PropSt ℝ} {rows : List (AreaRow ℝ)} (I : SInv b s p) (hi : CacheInv p)
    (hk : p.klim.map fixKlim = some 5) (hmd : p.mdvar = some 3)
    (h : areaLoop zt zl zc ndc ds2 k jd d dt p = .ok (rows, r)) :
    List.Forall₂ (fun x row => (linkOf b).dlsa ≤ 1000 * x.1 → GoodRow b zt zl x row)
      ((gridDist ndc ds2 k jd d dt).flatMap fun d => zc.map fun c => (d, c)) rows := by
  induction k generalizing jd d dt p rows with
  | zero =>
    unfold areaLoop at h
    rw [pure_ok, ok_inj] at h
    obtain ⟨rfl, rfl⟩ := Prod.mk.inj h
    exact .nil
  | succ k ih =>
    unfold areaLoop at h
    obtain ⟨q, hq, h⟩ := bind_eq_ok.1 h
    obtain ⟨fs, hfs, h⟩ := bind_eq_ok.1 h
    obtain ⟨⟨r1, q1⟩, h1, h⟩ := bind_eq_ok.1 h
    obtain ⟨⟨r2, q2⟩, h2, h⟩ := bind_eq_ok.1 h
    dsimp only at h
    rw [pure_ok, ok_inj] at h
    obtain ⟨rfl, rfl⟩ := Prod.mk.inj h
    have I' : SInv b s { p with lvar := max 1 p.lvar } := ⟨I.mdp, I.inp, I.hor, I.diff, I.line, I.cache⟩
    have Iq := (cont_inv I' hq).1
    have hiq : CacheInv q := cacheInv_lrFrame (hi.raise (n := max 1 p.lvar) (by omega)) (by simp only; omega) (lrprop_frame hq)
    have hdq := lrprop_dist hq
    have hm' : (0:Int) ≤ ({ p with lvar := max 1 p.lvar } : PropSt ℝ).mdp := I.mdp.ge
    rw [if_pos hm', if_pos hm'] at hdq
    have e1000 : ∀ x : ℝ, x * 1000.0 = 1000 * x := fun x => by norm_num; ring
    rw [e1000] at hdq hq
    have hkq : q.klim = p.klim ∧ q.mdvar = p.mdvar := by
      obtain ⟨_, _, _, _, _, _, _, rfl⟩ := lrprop_frame hq
      exact ⟨rfl, rfl⟩
    obtain ⟨⟨i1, k1, f1⟩, g1⟩ := areaInner_ok hiq h1
    have I1 : SInv b s q1 := by
      obtain ⟨_, _, _, _, _, _, _, _, rfl⟩ := f1
      exact ⟨Iq.mdp, Iq.inp, Iq.hor, Iq.diff, Iq.line, Iq.cache⟩
    have hk1 : q1.klim.map fixKlim = some 5 := by
      have : q1.klim.map fixKlim = q.klim.map fixKlim := congrArg Prod.fst k1
      rw [this, hkq.1]; exact hk
    have hm1 : q1.mdvar = some 3 := by
      obtain ⟨_, _, _, _, _, _, _, _, rfl⟩ := f1
      exact hkq.2.trans hmd
    have g2 := ih I1 i1 hk1 hm1 h2
    unfold gridDist
    rw [List.flatMap_cons]
    refine List.rel_append ?_ g2
    by_cases hD : (linkOf b).dlsa ≤ 1000 * d
    · have := inner_good hiq Iq.inp (by rw [hkq.1]; exact hk) (hkq.2.trans hmd) hdq.1 hfs
        (cont_reference hm hs I' hq hD h5 h6) h1
      refine this.imp ?_
      intro _ _ h _
      exact h
    · rw [List.forall₂_map_left_iff]
      exact g1.imp fun c row _ hD' => absurd hD' hD

theorem areaSys_real {f : ℝ} {ipol : Int} {z : Cx ℝ} (h : areaSys f ipol = .ok z) : z.toC = lossless f (decide (ipol ≠ 0)) := by
  unfold areaSys groundZq at h
  rw [bind_assoc] at h
  obtain ⟨x, hx, h⟩ := bind_eq_ok.1 h
  obtain ⟨-, rfl⟩ := pyDiv_eq_ok.1 hx
  rw [pure_bind] at h
  obtain ⟨y, hy, h⟩ := bind_eq_ok.1 h
  obtain ⟨-, rfl⟩ := mathSqrt_eq_ok.1 hy
  have e14 : (15.0 - 1.0 : ℝ) = 14 := by norm_num
  dsimp only at h
  rw [e14] at h
  have e15 : Cx.toC ⟨15.0, 376.62 * 0.001 / (f / 47.7)⟩ = permittivity 15 0.001 (waveNumber f) := by
    unfold Cx.toC permittivity waveNumber
    congr 1
    norm_num
  unfold lossless
  by_cases c : ipol ≠ 0
  · rw [if_pos c] at h
    rw [if_pos (by simpa using c), toC_div h, toC_real, e15]
  · rw [if_neg c, pure_ok, ok_inj] at h
    rw [if_neg (by simpa using c), ← h, toC_real]

/-- The link the area runner prepares. -/
theorem area_link {kst : Pair Int} {p s q : PropSt ℝ} (hg0 : 0 < p.hg.x0) (hg1 : 0 < p.hg.x1) (hd : 0 ≤ p.dh)
    (hs : areaSetup p = .ok s) (hq : qlra kst s = .ok q) :
    linkOf q = roughLink p.fmhz p.dh p.hg.x0 p.hg.x1 301 kst.x0 kst.x1 (lossless p.fmhz (decide (p.ipol ≠ 0))) ∧
      q.mdp = 1 ∧ q.klim = some 5 ∧ q.mdvar = some 3 ∧ CacheInv q := by
  rw [areaSetup_eq] at hs
  obtain ⟨z, hz, hs⟩ := bind_eq_ok.1 hs
  rw [pure_ok, ok_inj] at hs
  have hz' := areaSys_real hz
  have hκ : 0 < s.gme := by
    rw [← hs]; have := (curvature_range (n := 301.0) (by norm_num) (by norm_num)).1; dsimp only; linarith
  have g0 : 0 < s.hg.x0 := by rw [← hs]; exact hg0
  have g1 : 0 < s.hg.x1 := by rw [← hs]; exact hg1
  have gd : 0 ≤ s.dh := by rw [← hs]; exact hd
  obtain ⟨he0, he1, q', e, hq', -⟩ := C38_total (kst := kst) g0 g1 hκ gd
  obtain ⟨h0, h1⟩ := C38_heights hq
  rw [hq, ok_inj] at e
  subst e
  have e0 : he0 = sitedHeight kst.x0 p.hg.x0 p.dh := by rw [hq', ← hs] at h0; exact h0
  have e1 : he1 = sitedHeight kst.x1 p.hg.x1 p.dh := by rw [hq', ← hs] at h1; exact h1
  have eN : (301.0 : ℝ) = 301 := by norm_num
  have eκ : s.gme = curvature 301 := by rw [← hs]; dsimp only; rw [effCurvature_real, eN]
  refine ⟨?_, by rw [hq'], by rw [hq', ← hs]; rfl, by rw [hq', ← hs]; rfl, ?_⟩
  · rw [hq', ← hz', e0, e1]
    unfold linkOf roughLink
    simp only [eκ]
    rw [← hs]
    simp only [eN, Cx.toC]
    rfl
  · refine cacheInv_of_five ?_
    rw [hq', ← hs]; rfl

/-- **C59** (area, what holds) The loss of every row beyond the horizon, and of the rows of the first distance, is the published loss
at that distance of the link the user described (lossless ground), for the deviates of the requested levels, in climate 5 with
broadcast variability.
Full statement: all rows; false for later rows within line of sight (`C20_sweep_refuted`). -/
theorem C59_area_partial {qt ql : Int} {qc : List Int} {g : Grid ℝ} {kst : Pair Int} {p r : PropSt ℝ} {rows : List (AreaRow ℝ)}
    (hg0 : 0 < p.hg.x0) (hg1 : 0 < p.hg.x1) (hd : 0 ≤ p.dh) (h : itmlogicAreaAt qt ql qc g kst p = .ok (rows, r)) {L : Link}
    (hL : L = roughLink p.fmhz p.dh p.hg.x0 p.hg.x1 301 kst.x0 kst.x1 (lossless p.fmhz (decide (p.ipol ≠ 0)))) :
    ∃ zt zl, DeviateOf qt zt ∧ DeviateOf ql zl ∧ ∀ row ∈ rows, 0 < row.distance_km → L.Regular (1000 * row.distance_km) →
      (row ∈ rows.take qc.length ∨ L.dlsa ≤ 1000 * row.distance_km) →
      ∃ zc, DeviateOf row.confidence zc ∧ row.loss = L.loss 5 3 false false (1000 * row.distance_km) zt zl zc := by
  obtain ⟨zt, zl, zc, s, b, dt, ht, hl, hzc, hs, hq, -, h⟩ := itmlogicAreaAt_ok h
  obtain ⟨hb, hm, hk, hmd, hi⟩ := area_link hg0 hg1 hd hs hq
  rw [← hL] at hb
  refine ⟨zt, zl, ht, hl, ?_⟩
  have hz := zip_deviates hzc
  have hdev : ∀ y ∈ qc.zip zc, DeviateOf y.1 y.2 := by
    intro y hy
    obtain ⟨x, -, e, hx⟩ := forall₂_mem hz y hy
    rw [e]; exact hx
  have hlen := hz.length_eq
  generalize qc.zip zc = Z at h hdev hlen
  generalize (areaPlan g).nd.toNat = k at h
  cases k with
  | zero =>
    unfold areaLoop at h
    rw [pure_ok, ok_inj] at h
    obtain ⟨rfl, rfl⟩ := Prod.mk.inj h
    simp
  | succ k =>
    unfold areaLoop at h
    obtain ⟨q, hq, h⟩ := bind_eq_ok.1 h
    obtain ⟨fs, hfs, h⟩ := bind_eq_ok.1 h
    obtain ⟨⟨r1, q1⟩, h1, h⟩ := bind_eq_ok.1 h
    obtain ⟨⟨r2, q2⟩, h2, h⟩ := bind_eq_ok.1 h
    dsimp only at h
    rw [pure_ok, ok_inj] at h
    obtain ⟨rfl, rfl⟩ := Prod.mk.inj h
    obtain ⟨b', hb'⟩ : ∃ b' : PropSt ℝ, b' = { b with lvar := max 1 b.lvar } := ⟨_, rfl⟩
    rw [← hb'] at hq
    have hL' : linkOf b' = L := by rw [hb', ← hb]; rfl
    have hm' : 0 < b'.mdp := by rw [hb']; dsimp only; omega
    obtain ⟨S, hS, Iq, -⟩ := first_inv hm' hq
    have hiq : CacheInv q := by
      refine cacheInv_lrFrame ?_ ?_ (lrprop_frame hq)
      · rw [hb']; exact hi.raise (n := max 1 b.lvar) (by omega)
      · rw [hb']; simp only; omega
    have hdq := lrprop_dist hq
    rw [if_pos hm'.le, if_pos hm'.le] at hdq
    have e1000 : ∀ x : ℝ, x * 1000.0 = 1000 * x := fun x => by norm_num; ring
    rw [e1000] at hdq hq
    have hkq : q.klim = some 5 ∧ q.mdvar = some 3 := by
      obtain ⟨_, _, _, _, _, _, _, rfl⟩ := lrprop_frame hq
      rw [hb']; exact ⟨hk, hmd⟩
    obtain ⟨⟨i1, k1, f1⟩, g1⟩ := areaInner_ok hiq h1
    have I1 : SInv b' S q1 := by
      obtain ⟨_, _, _, _, _, _, _, _, rfl⟩ := f1
      exact ⟨Iq.mdp, Iq.inp, Iq.hor, Iq.diff, Iq.line, Iq.cache⟩
    have Iq1 := I1.mdp
    have hk1 : q1.klim.map fixKlim = some 5 := by
      have : q1.klim.map fixKlim = q.klim.map fixKlim := congrArg Prod.fst k1
      rw [this, hkq.1]; rfl
    have hm1 : q1.mdvar = some 3 := by
      obtain ⟨_, _, _, _, _, _, _, _, rfl⟩ := f1
      exact hkq.2
    have g2 := areaLoop_ok i1 Iq1.ge h2
    have hfirst : ∀ row ∈ r1, 0 < row.distance_km → L.Regular (1000 * row.distance_km) → ∃ zc, DeviateOf row.confidence zc ∧
          row.loss = L.loss 5 3 false false (1000 * row.distance_km) zt zl zc := by
      intro row hrow h0 hreg
      obtain ⟨c, hc, hdist, -⟩ := forall₂_mem g1 row hrow
      rw [hdist] at h0 hreg
      have hg := inner_good hiq Iq.inp (by rw [hkq.1]; rfl) hkq.2 hdq.1 hfs
        (first_reference hm' (by positivity) hq (by rw [hL']; exact hreg)) h1
      rw [List.forall₂_map_left_iff] at hg
      obtain ⟨c, hc, -, e2, e3⟩ := forall₂_mem hg row hrow
      exact ⟨c.2, by rw [e2]; exact hdev c hc, by rw [e3, hL', hdist]⟩
    have hrest : ∀ row ∈ r2, 0 < row.distance_km → L.Regular (1000 * row.distance_km) → L.dlsa ≤ 1000 * row.distance_km →
        ∃ zc, DeviateOf row.confidence zc ∧ row.loss = L.loss 5 3 false false (1000 * row.distance_km) zt zl zc := by
      intro row hrow h0 hreg hD
      have hsc := hreg.resolve_left fun h => absurd h.2 (not_lt.2 hD)
      rw [← hL'] at hsc
      have hg := loop_good hm' hS hsc.1 hsc.2 I1 i1 hk1 hm1 h2
      obtain ⟨x, hx, hd1, hd2⟩ := forall₂_mem (forall₂_and hg g2) row hrow
      obtain ⟨-, -, -, -, -, -, -, hdist, -⟩ := hd2
      obtain ⟨-, e2, e3⟩ := hd1 (by rw [hL', ← hdist]; exact hD)
      obtain ⟨d, -, hx⟩ := List.mem_flatMap.1 hx
      obtain ⟨y, hy, rfl⟩ := List.mem_map.1 hx
      exact ⟨y.2, by rw [e2]; exact hdev y hy, by rw [e3, hL', hdist]⟩
    intro row hrow h0 hreg hw
    rcases List.mem_append.1 hrow with h | h
    · exact hfirst row h h0 hreg
    · rcases hw with hw | hw
      · have e : r1.length = qc.length := by rw [← g1.length_eq, hlen]
        rw [← e, List.take_left' rfl] at hw
        exact hfirst row hw h0 hreg
      · exact hrest row h h0 hreg hw

/-! ### Point-to-point -/

/-- What `qlrpfl` leaves: the parameters of the path and its reference attenuation. -/
theorem qlrpfl_reference {s q : PropSt ℝ} {n : ℕ} (hn : 1 ≤ n) (hnp : s.pfl.np = n) (hx : 0 < s.pfl.xi) (hl : n < s.pfl.z.length)
    (hg0 : 0 < s.hg.x0) (hg1 : 0 < s.hg.x1) (hκ : 0 < s.gme) (h : qlrpfl s = .ok q) :
    ∃ G, (pathOf s n).IsGeometry (s.pfl.z.getD (n - 1) 0) G ∧ q.dist = n * s.pfl.xi ∧ q.wn = s.wn ∧ q.dh = G.dh ∧ q.he.x0 = G.he₀ ∧
      q.he.x1 = G.he₁ ∧
      q.aref = some (((pathOf s n).link G s.wn s.ens s.zgnd.toC).unbarredReference (n * s.pfl.xi)) := by
  unfold qlrpfl at h
  obtain ⟨t, ht, h⟩ := bind_eq_ok.1 h
  have hG := C58_clear_shifted hn hnp hx hl hg0 hg1 hκ ht
  obtain ⟨t', e, P⟩ := qlrpflPrep_ok hn hnp hx hl hg0 hg1 hκ
  rw [ht, ok_inj] at e
  subst e
  have hr := P.rest
  have hmdp : t.mdp = -1 := by rw [hr]
  have hL : linkOf t = (pathOf s n).link (geometryOf t) s.wn s.ens s.zgnd.toC := by
    unfold linkOf Path.link pathOf geometryOf
    rw [hmdp]
    have e1 : t.hg = s.hg := by rw [hr]
    have e2 : t.wn = s.wn := by rw [hr]
    have e3 : t.ens = s.ens := by rw [hr]
    have e4 : t.gme = s.gme := by rw [hr]
    have e5 : t.zgnd = s.zgnd := by rw [hr]
    simp only [e1, e2, e3, e4, e5, Cx.toC]
    rfl
  have hdist : q.dist = n * s.pfl.xi := by
    rw [(setup_call (by omega) h).1]; unfold distOf; rw [if_neg (by omega), hr]
  have hfr : q.wn = t.wn ∧ q.dh = t.dh ∧ q.he = t.he := by
    obtain ⟨_, _, _, _, _, _, _, rfl⟩ := lrprop_frame h
    exact ⟨rfl, rfl, rfl⟩
  refine ⟨geometryOf t, hG, hdist, by rw [hfr.1, hr], hfr.2.1, by rw [hfr.2.2]; rfl, by rw [hfr.2.2]; rfl, ?_⟩
  rw [← hL, ← hdist]
  exact lrprop_exact (by omega) h

theorem sqrt_impedance (w : ℝ) :
    ((Cx.sqrt (Cx.sub ⟨15.0, 376.62 * 0.005 / w⟩ ⟨1.0, 0.0⟩)).toC) ^ 2 = permittivity 15 0.005 w - 1 ∧
      0 ≤ (Cx.sqrt (Cx.sub ⟨15.0, 376.62 * 0.005 / w⟩ ⟨1.0, 0.0⟩)).toC.re ∧
      Cx.toC ⟨15.0, 376.62 * 0.005 / w⟩ = permittivity 15 0.005 w := by
  have e : Cx.toC ⟨15.0, 376.62 * 0.005 / w⟩ = permittivity 15 0.005 w := by
    unfold Cx.toC permittivity
    congr 1
    norm_num
  obtain ⟨h1, h2⟩ := cxsqrt_spec (Cx.sub ⟨15.0, 376.62 * 0.005 / w⟩ ⟨1.0, 0.0⟩)
  refine ⟨?_, h2, e⟩
  rw [h1, toC_sub, e, toC_real]
  norm_num

theorem p2pSys_real {f d xi : ℝ} {ipol : Int} {profile : List ℝ} {z : Cx ℝ} (hd : 0 < d) (hl : 2 ≤ profile.length)
    (h : p2pSys f d ipol profile = .ok (xi, z)) :
    xi = 1000 * d / (profile.length - 1 : ℕ) ∧ IsImpedance 15 0.005 (waveNumber f) (decide (ipol ≠ 0)) z.toC := by
  unfold p2pSys groundZq at h
  dsimp only at h
  have hd' : ¬ d ≤ 0.0 := by rw [zero_lit]; exact not_le.2 hd
  rw [if_neg hd'] at h
  obtain ⟨y, hy, h⟩ := bind_eq_ok.1 h
  obtain ⟨-, rfl⟩ := pyDiv_eq_ok.1 hy
  rw [bind_assoc] at h
  obtain ⟨x, hx, h⟩ := bind_eq_ok.1 h
  obtain ⟨-, rfl⟩ := pyDiv_eq_ok.1 hx
  rw [pure_bind] at h
  obtain ⟨s1, s2, s3⟩ := sqrt_impedance (waveNumber f)
  have e1 : d * 1000.0 / PyNum.ofInt (profile.length - 1) = 1000 * d / ((profile.length - 1 : ℕ) : ℝ) := by
    rw [rofInt]
    have : ((profile.length - 1 : ℤ) : ℝ) = ((profile.length - 1 : ℕ) : ℝ) := by
      push_cast [Nat.cast_sub (show 1 ≤ profile.length by omega)]; rfl
    rw [this]
    norm_num
    ring
  by_cases c : ipol ≠ 0
  · rw [if_pos c] at h
    obtain ⟨w, hw, h⟩ := bind_eq_ok.1 h
    rw [pure_ok, ok_inj] at h
    obtain ⟨h1, rfl⟩ := Prod.mk.inj h
    refine ⟨by rw [← h1, e1], _, s1, s2, ?_⟩
    rw [if_pos (by simpa using c), toC_div hw, ← s3]
    rfl
  · rw [if_neg c, pure_bind, pure_ok, ok_inj] at h
    obtain ⟨h1, rfl⟩ := Prod.mk.inj h
    refine ⟨by rw [← h1, e1], _, s1, s2, ?_⟩
    rw [if_neg (by simpa using c)]
    rfl

/-- **C59** (point-to-point, every link) Every row is the loss of the link whose path parameters follow from the profile, for the
deviates of the two requested levels, in climate 5 with accidental variability and location variability eliminated; the attenuation is
the published one, except that no link is barred from scatter. On clear paths the ground height of the receiver is that of the last but
one profile point (`C40_refuted`). -/
theorem C59_p2p_exact {qc qr : List Int} {p r : PropSt ℝ} {profile : List ℝ} {rows : List (P2PRow ℝ)} {msgs : List P2PMsg}
    (hd : 0 < p.d) (hl : 2 ≤ profile.length) (hg0 : 0 < p.hg.x0) (hg1 : 0 < p.hg.x1)
    (h : itmlogicP2PAt qc qr p profile = .ok (rows, msgs, r)) {P : Path} (hP : P = profilePath p.d p.hg.x0 p.hg.x1 profile) :
    ∃ G z, P.IsGeometry (P.z (P.n - 1)) G ∧ IsImpedance 15 0.005 (waveNumber p.fmhz) (decide (p.ipol ≠ 0)) z ∧
      ∀ L, L = P.link G (waveNumber p.fmhz) 314 z → ∀ row ∈ rows, row.distance_km = p.d ∧
        ∃ zr zc, DeviateOf row.reliability zr ∧ DeviateOf row.confidence zc ∧
          row.loss = L.lossWith 5 1 true false (1000 * p.d) (L.unbarredReference (1000 * p.d)) zr 0 zc := by
  obtain ⟨s, q, l, hs, hq, hmd, hk, hlog, hrows⟩ := C42_rows h
  have I := (p2pPrep_ok hs hq).inv
  obtain ⟨xi, zg, hsys, rfl⟩ := p2pSetup_ok hs
  obtain ⟨exi, hz⟩ := p2pSys_real hd hl hsys
  obtain ⟨n, hn⟩ : ∃ n, n = profile.length - 1 := ⟨_, rfl⟩
  have hn1 : 1 ≤ n := by omega
  have hn0 : (0 : ℝ) < n := by exact_mod_cast hn1
  rw [← hn] at exi
  have hκ := (curvature_range (n := 314.0) (by norm_num) (by norm_num)).1
  have eN : (314.0 : ℝ) = 314 := by norm_num
  obtain ⟨G, hG, hdist, hwn, hdh, he0, he1, har⟩ := qlrpfl_reference (n := n) hn1 (by dsimp only; omega)
    (by dsimp only; rw [exi]; positivity) (by dsimp only; omega) (by dsimp only; exact hg0) (by dsimp only; exact hg1)
    (by dsimp only; linarith) hq
  dsimp only at hG hdist hwn har
  have hlen : (n : ℝ) * xi = 1000 * p.d := by rw [exi]; field_simp
  have hP' : ∀ t : PropSt ℝ, t.pfl.xi = xi → t.pfl.z = profile → t.gme = effCurvature 157e-9 314.0 → t.hg = p.hg → pathOf t n = P := by
    intro t h1 h2 h3 h4
    rw [hP]
    unfold pathOf profilePath
    simp only [h1, h2, h3, h4, effCurvature_real, eN, exi, hn]
  have hG' := hG
  rw [hP'] at hG' <;> try rfl
  rw [hP'] at har <;> try rfl
  clear hG
  rw [hlen] at hdist har
  have hPn : P.n = n := by rw [hP, hn]; rfl
  have hPz : P.z = fun j => profile.getD j 0 := by rw [hP]; rfl
  refine ⟨G, zg.toC, by rw [hPn, hPz]; exact hG', hz, ?_⟩
  intro L hL row hrow
  obtain ⟨x, -, hrf⟩ := forall₂_mem hrows row hrow
  obtain ⟨e1, e2, e3, zr, zc, a, w, d1, d2, ha, e⟩ := hrf
  refine ⟨e1, zr, zc, by rw [e2]; exact d1, by rw [e3]; exact d2, ?_⟩
  rw [eN] at har
  have hq := quantile_inv (m := 1) (noLoc := true) (noSit := false) (k := 5) I (by rw [hk]; rfl) ⟨by decide, by decide⟩ hmd
    ⟨by decide, by decide, rfl⟩ har (avar_ans I ha)
  obtain ⟨-, rfl⟩ := npLog_eq_ok.1 hlog
  rw [e, hq, hdist, hdh, he0, he1, hwn, two_lit, zero_lit, hL]
  rfl

/-- **C59** (point-to-point) Every row is the published loss of the link whose path parameters follow from the profile, for the
deviates of the two requested levels, in climate 5 with accidental variability and location variability eliminated. On clear paths
the ground height of the receiver is that of the last but one profile point (`C40_refuted`). -/
theorem C59_p2p_shifted {qc qr : List Int} {p r : PropSt ℝ} {profile : List ℝ} {rows : List (P2PRow ℝ)} {msgs : List P2PMsg}
    (hd : 0 < p.d) (hl : 2 ≤ profile.length) (hg0 : 0 < p.hg.x0) (hg1 : 0 < p.hg.x1)
    (h : itmlogicP2PAt qc qr p profile = .ok (rows, msgs, r)) {P : Path} (hP : P = profilePath p.d p.hg.x0 p.hg.x1 profile) :
    ∃ G z, P.IsGeometry (P.z (P.n - 1)) G ∧ IsImpedance 15 0.005 (waveNumber p.fmhz) (decide (p.ipol ≠ 0)) z ∧
      ∀ L, L = P.link G (waveNumber p.fmhz) 314 z → L.Regular (1000 * p.d) → ∀ row ∈ rows, row.distance_km = p.d ∧
        ∃ zr zc, DeviateOf row.reliability zr ∧ DeviateOf row.confidence zc ∧
          row.loss = L.loss 5 1 true false (1000 * p.d) zr 0 zc := by
  obtain ⟨G, z, hG, hz, H⟩ := C59_p2p_exact hd hl hg0 hg1 h hP
  refine ⟨G, z, hG, hz, fun L hL hreg row hrow => ?_⟩
  obtain ⟨e1, zr, zc, d1, d2, e⟩ := H L hL row hrow
  exact ⟨e1, zr, zc, d1, d2, by rw [e, Link.unbarredReference_eq hreg]; rfl⟩

/-- **C59** (point-to-point, what holds) The same with the receiver's own ground height, on obstructed paths and on paths whose
last two points have one height. Full statement: on all paths; false, see `C40_refuted`. -/
theorem C59_p2p_partial {qc qr : List Int} {p r : PropSt ℝ} {profile : List ℝ} {rows : List (P2PRow ℝ)} {msgs : List P2PMsg}
    (hd : 0 < p.d) (hl : 2 ≤ profile.length) (hg0 : 0 < p.hg.x0) (hg1 : 0 < p.hg.x1)
    (h : itmlogicP2PAt qc qr p profile = .ok (rows, msgs, r)) {P : Path} (hP : P = profilePath p.d p.hg.x0 p.hg.x1 profile)
    (hend : ¬ P.Clear ∨ P.z P.n = P.z (P.n - 1)) :
    ∃ G z, P.IsGeometry (P.z P.n) G ∧ IsImpedance 15 0.005 (waveNumber p.fmhz) (decide (p.ipol ≠ 0)) z ∧
      ∀ L, L = P.link G (waveNumber p.fmhz) 314 z → L.Regular (1000 * p.d) → ∀ row ∈ rows, row.distance_km = p.d ∧
        ∃ zr zc, DeviateOf row.reliability zr ∧ DeviateOf row.confidence zc ∧
          row.loss = L.loss 5 1 true false (1000 * p.d) zr 0 zc := by
  obtain ⟨G, z, hG, hz, H⟩ := C59_p2p_shifted hd hl hg0 hg1 h hP
  refine ⟨G, z, ?_, hz, H⟩
  rcases hend with hc | hz
  · obtain ⟨θ₀, θ₁, d₀, d₁, x, y, a1, a2, a3, a4, -, a6⟩ := hG
    exact ⟨θ₀, θ₁, d₀, d₁, x, y, a1, a2, a3, a4, fun h => absurd h hc, a6⟩
  · rw [hz]; exact hG

/-! ### Campaign -/

/-- **C59** (campaign, every link) The same for every row of `pimter.py`: receiver heights 10 … 130 m, but for the deviates of the
percentages themselves (`C06_refuted`). -/
theorem C59_pimter_exact {qr qc : Int} {terrain surface distance : List ℝ} {p : PropSt ℝ} {rows : List (PimterRow ℝ)} {d0 d1 : ℝ}
    {tl : List ℝ} (hdis : distance = d0 :: d1 :: tl) (hx : d0 < d1) (hl : distance.length ≤ terrain.length)
    (h : runItmlogicPimterAt qr qc terrain surface distance p = .ok rows) :
    ∃ zr zc, qerfi [(qr : ℝ)] = .ok [zr] ∧ qerfi [(qc : ℝ)] = .ok [zc] ∧ ∀ row ∈ rows, ∃ P : Path, P.n = tl.length + 1 ∧ P.ξ = d1 - d0 ∧
      P.κ = curvature 314 ∧ P.hg₀ = 2.56 ∧ P.hg₁ = row.hg ∧ (P.z = fun j => terrain.getD j 0) ∧
      ∃ G z, P.IsGeometry (P.z (P.n - 1)) G ∧ IsImpedance 15 0.005 (waveNumber 2488) true z ∧
        ∀ L, L = P.link G (waveNumber 2488) 314 z → row.loss = L.lossWith 5 1 true false P.len (L.unbarredReference P.len) zr 0 zc := by
  obtain ⟨s, zr, zc, hs, hzr, hzc, hf⟩ := C52_rows ordered_real h
  rw [rofInt] at hzr hzc
  refine ⟨zr, zc, hzr, hzc, ?_⟩
  intro row hrow
  obtain ⟨i, -, ehg, -, -, ht⟩ := forall₂_mem hf row hrow
  rw [← ehg, pimterLoop_cons] at ht
  obtain ⟨⟨row', t⟩, ht, h2⟩ := bind_eq_ok.1 ht
  obtain ⟨rest, -, h2⟩ := bind_eq_ok.1 h2
  rw [pure_ok, ok_inj] at h2
  obtain ⟨h3, -⟩ := List.cons.inj h2
  rw [h3] at ht
  unfold pimterTurn at ht
  obtain ⟨q, hq, ht⟩ := bind_eq_ok.1 ht
  obtain ⟨fs, hfs, ht⟩ := bind_eq_ok.1 ht
  obtain ⟨⟨a, q'⟩, ha, ht⟩ := bind_eq_ok.1 ht
  dsimp only at ht
  rw [pure_ok, ok_inj] at ht
  obtain ⟨hrw, -⟩ := Prod.mk.inj ht
  obtain ⟨I, hmd, R⟩ := pimter_prep hq
  rw [pimterSetup_eq, hdis] at hs
  obtain ⟨y1, g1, hs⟩ := bind_eq_ok.1 hs
  obtain ⟨y0, g0, hs⟩ := bind_eq_ok.1 hs
  obtain ⟨yn, -, hs⟩ := bind_eq_ok.1 hs
  obtain ⟨zg, hzg, hs⟩ := bind_eq_ok.1 hs
  rw [pure_ok, ok_inj] at hs
  obtain rfl : d1 = y1 := ok_inj.1 (by rw [← g1]; rfl)
  obtain rfl : d0 = y0 := ok_inj.1 (by rw [← g0]; rfl)
  have ew : (2.488 * 1000.0 / 47.7 : ℝ) = waveNumber 2488 := by unfold waveNumber; norm_num
  have eN : (314.0 : ℝ) = 314 := by norm_num
  have hz : IsImpedance 15 0.005 (waveNumber 2488) true zg.toC := by
    obtain ⟨s1, s2, s3⟩ := sqrt_impedance (waveNumber 2488)
    unfold pimterGround groundZq at hzg
    rw [ew, bind_assoc] at hzg
    obtain ⟨x, hx, hzg⟩ := bind_eq_ok.1 hzg
    obtain ⟨-, rfl⟩ := pyDiv_eq_ok.1 hx
    rw [pure_bind] at hzg
    refine ⟨_, s1, s2, ?_⟩
    rw [if_pos rfl, toC_div hzg, ← s3]
  have hκ := (curvature_range (n := 314.0) (by norm_num) (by norm_num)).1
  have hh : row.hg = 10 + (i : ℝ) := by rw [ehg, rofInt]; push_cast; rfl
  have hh0 : 0 < row.hg := by rw [hh]; positivity
  obtain ⟨u, hu⟩ : ∃ u : PropSt ℝ, u = { s with hg := ⟨s.hg.x0, row.hg⟩, lvar := 5, kwx := 0, klimx := 0, mdvarx := 11 } := ⟨_, rfl⟩
  rw [← hu] at hq
  have u1 : u.pfl = { np := (d0 :: d1 :: tl).length - 1, xi := d1 - d0, z := terrain } := by rw [hu, ← hs]
  have u2 : u.gme = effCurvature 157e-9 314.0 := by rw [hu, ← hs]
  have u3 : u.hg = ⟨2.56, row.hg⟩ := by rw [hu, ← hs]
  have u4 : u.wn = waveNumber 2488 := by rw [hu, ← hs, ← ew]
  have u5 : u.ens = 314 := by rw [hu, ← hs, ← eN]
  have u6 : u.zgnd = zg := by rw [hu, ← hs]
  rw [hdis] at hl
  simp only [List.length_cons] at hl
  obtain ⟨G, hG, hdist, hwn, hdh, he0, he1, har⟩ := qlrpfl_reference (n := tl.length + 1) (by omega)
    (by rw [u1]; simp) (by rw [u1]; dsimp only; linarith) (by rw [u1]; dsimp only; omega) (by rw [u3]; norm_num) (by rw [u3]; exact hh0)
    (by rw [u2]; linarith) hq
  have eκ : u.gme = curvature 314 := by rw [u2, effCurvature_real, eN]
  refine ⟨pathOf u (tl.length + 1), rfl, by unfold pathOf; rw [u1], eκ, by unfold pathOf; rw [u3], by unfold pathOf; rw [u3],
    by unfold pathOf; rw [u1], G, zg.toC, hG, hz, ?_⟩
  intro L hL
  have hlen : (pathOf u (tl.length + 1)).len = q.dist := by rw [hdist]; rfl
  rw [hlen]
  rw [u4, u5, u6, ← hdist, ← hL] at har
  have hk : q.klim.map fixKlim = some 5 := by rw [← R.klim, ← hs]; rfl
  have hqq := quantile_inv (m := 1) (noLoc := true) (noSit := false) I hk ⟨by decide, by decide⟩ hmd
    ⟨by decide, by decide, rfl⟩ har (avar_ans I ha)
  rw [← hrw]
  dsimp only
  rw [hqq, freeSpace_real hfs, hdh, he0, he1, hwn, u4, zero_lit, hL]
  rfl

/-- **C59** (campaign) The same for every row of `pimter.py`: receiver heights 10 … 130 m, but for the deviates of the percentages
themselves (`C06_refuted`). -/
theorem C59_pimter_shifted {qr qc : Int} {terrain surface distance : List ℝ} {p : PropSt ℝ} {rows : List (PimterRow ℝ)} {d0 d1 : ℝ}
    {tl : List ℝ} (hdis : distance = d0 :: d1 :: tl) (hx : d0 < d1) (hl : distance.length ≤ terrain.length)
    (h : runItmlogicPimterAt qr qc terrain surface distance p = .ok rows) :
    ∃ zr zc, qerfi [(qr : ℝ)] = .ok [zr] ∧ qerfi [(qc : ℝ)] = .ok [zc] ∧ ∀ row ∈ rows, ∃ P : Path, P.n = tl.length + 1 ∧ P.ξ = d1 - d0 ∧
      P.κ = curvature 314 ∧ P.hg₀ = 2.56 ∧ P.hg₁ = row.hg ∧ (P.z = fun j => terrain.getD j 0) ∧
      ∃ G z, P.IsGeometry (P.z (P.n - 1)) G ∧ IsImpedance 15 0.005 (waveNumber 2488) true z ∧
        ∀ L, L = P.link G (waveNumber 2488) 314 z → L.Regular P.len → row.loss = L.loss 5 1 true false P.len zr 0 zc := by
  obtain ⟨zr, zc, h1, h2, H⟩ := C59_pimter_exact hdis hx hl h
  refine ⟨zr, zc, h1, h2, fun row hrow => ?_⟩
  obtain ⟨P, a1, a2, a3, a4, a5, a6, G, z, hG, hz, hL⟩ := H row hrow
  refine ⟨P, a1, a2, a3, a4, a5, a6, G, z, hG, hz, fun L e hreg => ?_⟩
  rw [hL L e, Link.unbarredReference_eq hreg]; rfl

/-! ### Instances -/

/-- Links over terrain without irregularity are usable for scatter at moderate wave number and height. -/
theorem flat_regular {L : Link} (hκ : 1.1e-7 ≤ L.gme) (hθ : L.the₀ + L.the₁ = -L.dla * L.gme) (hw : 5 ≤ L.wn * L.he₀) (d : ℝ) :
    L.Regular d := by
  refine .inr ⟨.inl ?_, .inl ?_⟩
  · unfold Link.scatterR Link.scatterAngle Link.d5
    rw [hθ]
    have : (0.2 : ℝ) ≤ 2 * (L.wn * L.he₀) * (200000 * L.gme) := by nlinarith
    linarith
  · unfold Link.scatterR Link.scatterAngle Link.d6
    rw [hθ]
    have : (0.2 : ℝ) ≤ 2 * (L.wn * L.he₀) * (400000 * L.gme) := by nlinarith
    linarith

theorem flat_angle {κ he : ℝ} (hκ : 0 < κ) (hh : 0 < he) : roughAngle κ 0 he = -roughHorizon κ 0 he * κ := by
  have h1 := smoothReach_pos hκ hh
  have h2 : smoothReach κ he ^ 2 = 2 * he / κ := Real.sq_sqrt (by positivity)
  unfold roughAngle roughHorizon
  simp only [zero_div, Real.sqrt_zero, mul_zero, Real.exp_zero, mul_one, zero_mul]
  rw [div_eq_iff h1.ne', show -smoothReach κ he * κ * smoothReach κ he = -(smoothReach κ he ^ 2) * κ by ring, h2]
  field_simp
  ring

theorem curvature_pos {N : ℝ} (h0 : 0 ≤ N) (h : N ≤ 322) : 1.1e-7 ≤ curvature N := by
  rw [← effCurvature_real]; exact (curvature_range h0 h).1

/-- Area: 1 m antennas at 24 GHz over smooth earth with the shipped settings; all rows from 40 km on are the published losses. -/
example : ∃ rows r, itmlogicArea gridDefault ⟨2, 2⟩ areaLink = .ok (rows, r) ∧ rows.length = 66 ∧ ∀ row ∈ rows, 40 ≤ row.distance_km →
    ∃ zc, DeviateOf row.confidence zc ∧
      row.loss = (roughLink 24000 0 1 1 301 2 2 (lossless 24000 true)).loss 5 3 false false (1000 * row.distance_km) 0 0 zc := by
  obtain ⟨rows, r, h⟩ := area_run areaLink_level.1 ⟨2, 2⟩ 50 50 areaQc
  refine ⟨rows, r, h, (C46_shipped h).1, ?_⟩
  obtain ⟨zt, zl, ht, hl, H⟩ := C59_area_partial (p := areaLink) (by norm_num [areaLink]) (by norm_num [areaLink])
    (by norm_num [areaLink]) h rfl
  obtain rfl := (C06_fifty zt).1 ht
  obtain rfl := (C06_fifty zl).1 hl
  intro row hrow hd
  have hκ := curvature_pos (N := 301) (by norm_num) (by norm_num)
  have hb := qlraHe_bounds (k := 2) (hg := 1) (dh := 0) one_pos
  rw [qlraHe_real] at hb
  refine H row hrow (by linarith) ?_ (.inr ?_)
  · refine flat_regular hκ ?_ ?_ _
    · show roughAngle (curvature 301) 0 (sitedHeight 2 1 0) + roughAngle (curvature 301) 0 (sitedHeight 2 1 0) = _
      rw [flat_angle (by linarith) (by linarith [hb.1])]
      show _ = -(roughHorizon (curvature 301) 0 (sitedHeight 2 1 0) + roughHorizon (curvature 301) 0 (sitedHeight 2 1 0)) * curvature 301
      ring
    · show 5 ≤ (24000 / 47.7 : ℝ) * sitedHeight 2 1 0
      have := hb.1
      have : (5 : ℝ) ≤ 24000 / 47.7 := by norm_num
      nlinarith
  · show smoothHorizon (sitedHeight 2 1 0) (curvature 301) + smoothHorizon (sitedHeight 2 1 0) (curvature 301) ≤ _
    have : smoothHorizon (sitedHeight 2 1 0) (curvature 301) ≤ 20000 := by
      unfold smoothHorizon
      refine Real.sqrt_le_iff.2 ⟨by norm_num, ?_⟩
      rw [div_le_iff₀ (by linarith)]
      have := hb.2.1
      nlinarith
    linarith

/-- Point-to-point: the level path of 100 km; all 15 rows are the published losses. -/
example : ∃ rows msgs r G z, itmlogicP2P levelLink [0, 0] = .ok (rows, msgs, r) ∧ rows.length = 15 ∧
    (profilePath 100 20 20 [0, 0]).IsGeometry 0 G ∧ ∀ row ∈ rows, ∃ zr zc, DeviateOf row.reliability zr ∧ DeviateOf row.confidence zc ∧
      row.loss = ((profilePath 100 20 20 [0, 0]).link G (waveNumber 954) 314 z).loss 5 1 true false (1000 * 100) zr 0 zc := by
  obtain ⟨rows, msgs, r, h⟩ := level_run levelLink_path 0 p2pQc p2pQr
  obtain ⟨G, z, hG, hz, H⟩ := C59_p2p_partial (p := levelLink) (by norm_num [levelLink]) (by simp) (by norm_num [levelLink])
    (by norm_num [levelLink]) h rfl (.inr rfl)
  refine ⟨rows, msgs, r, G, z, h, (C42_shipped h).1, hG, fun row hrow => (H _ rfl ?_ row hrow).2⟩
  have hκ := curvature_pos (N := 314) (by norm_num) (by norm_num)
  obtain ⟨θ₀, θ₁, d₀, d₁, x, y, hH, hx, hy, hirr, hclear, -⟩ := hG
  obtain ⟨P, hP⟩ : ∃ P, P = profilePath levelLink.d levelLink.hg.x0 levelLink.hg.x1 [0, 0] := ⟨_, rfl⟩
  rw [← hP] at hH hx hy hirr hclear ⊢
  have hn : P.n = 1 := by rw [hP]; rfl
  have hξ : P.ξ = 100000 := by rw [hP]; unfold profilePath levelLink; norm_num
  have hlen : P.len = 100000 := by unfold Path.len; rw [hn, hξ]; norm_num
  have hκP : P.κ = curvature 314 := by rw [hP]; rfl
  have h0 : P.hg₀ = 20 := by rw [hP]; rfl
  have h1 : P.hg₁ = 20 := by rw [hP]; rfl
  obtain ⟨⟨-, -, a⟩, ⟨-, -, b⟩⟩ := hH
  have ed0 : d₀ = P.len := by
    rcases a with e | ⟨j, j1, j2, -⟩
    · exact e.2
    · omega
  have ed1 : d₁ = P.len := by
    rcases b with e | ⟨j, j1, j2, -⟩
    · exact e.2
    · omega
  have hdh : G.dh = 0 := by
    refine hirr.2 ?_
    rw [hx, hy, ed0, ed1, hlen, h0, h1, hξ]
    norm_num
  obtain ⟨c, s, -, hg⟩ := hclear (fun j h1 h2 => by omega)
  dsimp only at hg
  rw [hdh] at hg
  have m0 := le_max_right (P.z 0 - c) 0
  have m1 := le_max_right (P.z (P.n - 1) - (c + s * P.n)) 0
  have n1 := le_max_right (P.z P.n - (c + s * P.n)) 0
  obtain ⟨u0, hu0⟩ : ∃ u, u = P.hg₀ + max (P.z 0 - c) 0 := ⟨_, rfl⟩
  obtain ⟨u1, hu1⟩ : ∃ u, u = P.hg₁ + max (P.z P.n - (c + s * P.n)) 0 := ⟨_, rfl⟩
  rw [← hu0, ← hu1] at hg
  have p0 : 20 ≤ u0 := by rw [hu0, h0]; linarith
  have p1 : 20 ≤ u1 := by rw [hu1, h1]; linarith
  have hκ' : 0 < P.κ := by rw [hκP]; linarith
  have hf : 1 ≤ P.raise 0 u0 u1 := by
    unfold Path.raise
    have r0 := roughHorizon_pos (dh := 0) hκ' (show 0 < u0 by linarith)
    have r1 := roughHorizon_pos (dh := 0) hκ' (show 0 < u1 by linarith)
    split_ifs with hc
    · have : 1 ≤ P.len / (roughHorizon P.κ 0 u0 + roughHorizon P.κ 0 u1) := by rw [le_div_iff₀ (by positivity)]; linarith
      nlinarith
    · exact le_rfl
  obtain ⟨q0, q1, q2, q3, q4, q5⟩ := hg
  generalize P.raise 0 u0 u1 = f at *
  have k0 : 20 ≤ u0 * f := by nlinarith
  have k1 : 20 ≤ u1 * f := by nlinarith
  refine flat_regular (by show _ ≤ P.κ; rw [hκP]; exact hκ) ?_ ?_ _
  · show G.the₀ + G.the₁ = -(G.dl₀ + G.dl₁) * P.κ
    rw [q4, q5, q2, q3, flat_angle hκ' (by linarith), flat_angle hκ' (by linarith)]
    ring
  · show (5 : ℝ) ≤ 954 / 47.7 * G.he₀
    rw [q0]
    norm_num
    linarith

/-- Campaign: the hypotheses are met by a level profile of 200 km. -/
example (p : PropSt ℝ) : ∃ rows, runItmlogicPimter [0, 0] [] [0, 200000] p = .ok rows ∧ ∃ zr zc, qerfi [(50 : ℝ)] = .ok [zr] ∧
    qerfi [(50 : ℝ)] = .ok [zc] ∧ ∀ row ∈ rows, ∃ P : Path, P.n = 1 ∧ P.hg₁ = row.hg ∧
      ∃ G z, P.IsGeometry (P.z (P.n - 1)) G ∧ ∀ L, L = P.link G (waveNumber 2488) 314 z → L.Regular P.len →
        row.loss = L.loss 5 1 true false P.len zr 0 zc := by
  obtain ⟨rows, h⟩ := C53_pimter (D := 200000) (by norm_num) (by norm_num) 0 [] p 50 50
  obtain ⟨zr, zc, h1, h2, H⟩ := C59_pimter_shifted (d0 := 0) (d1 := 200000) (tl := []) rfl (by norm_num) (by simp) h
  refine ⟨rows, h, zr, zc, by exact_mod_cast h1, by exact_mod_cast h2, fun row hrow => ?_⟩
  obtain ⟨P, a1, -, -, -, a5, -, G, z, hG, -, hL⟩ := H row hrow
  exact ⟨P, a1, a5, G, z, hG, hL⟩

end Itm.Props
