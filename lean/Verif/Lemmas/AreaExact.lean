import Verif.Spec.Program
import Verif.Props.C59

/-! The rows of the area runner, exactly: within line of sight all distances are given the attenuation of the first. -/

namespace Itm
open Spec Props

/-- A continuing call within line of sight, after the coefficients are known, leaves the attenuation as it is. -/
theorem cont_stale {b q r : PropSt ℝ} {s : Setup ℝ} {D a : ℝ} (I : SInv b s q) (hw : q.wlos = true) (ha : q.aref = some a) (ha0 : 0 ≤ a)
    (h0 : 0 < D) (hD : D < s.h.dlsa) (h : lrprop D q = .ok r) : r.aref = some a := by
  have e := arefOf_cont I D
  rw [show arefOf (lrprop D q) = .ok r.aref by rw [h]; rfl] at e
  unfold runC losStage scatStage clampStage at e
  have n0 : ¬ (D ≤ (0.0 : ℝ) ∨ s.h.dlsa ≤ D) := by rw [zero_lit]; push Not; exact ⟨h0, hD⟩
  have e1 : (cacheOf q).wlos = true := hw
  have e2 : (cacheOf q).aref = some a := ha
  rw [if_pos hD, if_neg (by rw [e1]; simp), pure_bind', if_neg n0, pure_bind', e2] at e
  simp only [need, ok_bind, pure_ok, Except.map, pyMax_real, zero_lit, max_eq_left ha0] at e
  exact ok_inj.1 e

/-- A row is the loss for a given attenuation. -/
def RowWith (b : PropSt ℝ) (zt zl a : ℝ) (x : ℝ × Int × ℝ) (row : AreaRow ℝ) : Prop :=
  row.distance_km = x.1 ∧ row.confidence = x.2.1 ∧
    row.loss = (linkOf b).lossWith 5 3 false false (1000 * x.1) a zt zl x.2.2

theorem inner_with {b q q1 : PropSt ℝ} {d fs zt zl a : ℝ} {zc : List (Int × ℝ)} {rows : List (AreaRow ℝ)} (hi : CacheInv q)
    (hin : inp q = inp b) (hk : q.klim.map fixKlim = some 5) (hmd : q.mdvar = some 3) (hd : q.dist = 1000 * d)
    (hfs : freeSpace q.wn q.dist = .ok fs) (har : q.aref = some a)
    (h : areaInner d fs zt zl zc q = .ok (rows, q1)) :
    List.Forall₂ (RowWith b zt zl a) (zc.map fun c => (d, c)) rows := by
  obtain ⟨-, g⟩ := areaInner_ok hi h
  rw [List.forall₂_map_left_iff]
  refine g.imp fun c row hr => ?_
  obtain ⟨e1, e2, x, e3, e4⟩ := hr
  refine ⟨e1, e2, ?_⟩
  have e := quantile_inv (m := 3) (noLoc := false) (noSit := false) hi hk ⟨by decide, by decide⟩ hmd ⟨by decide, by decide, rfl⟩ har e3
  unfold inp at hin
  injection hin with a1 a2 a3 a4 a5 a6 a7 a8 a9
  rw [e4, e, freeSpace_real hfs, hd, a5, a2, a6]
  rfl

/-- The distance whose attenuation a sweep begun at `D₀` uses at distance `d`. -/
noncomputable def attDist (dlsa D₀ d : ℝ) : ℝ := if d < dlsa then D₀ else d

/-- What is known of a row. -/
def RowExact (b : PropSt ℝ) (zt zl D₀ : ℝ) (x : ℝ × Int × ℝ) (row : AreaRow ℝ) : Prop :=
  RowWith b zt zl ((linkOf b).unbarredReference (attDist (linkOf b).dlsa D₀ (1000 * x.1))) x row

theorem loop_exact {b : PropSt ℝ} {s : Setup ℝ} {zt zl D₀ : ℝ} {zc : List (Int × ℝ)} {ndc : Int} {ds2 : ℝ} (hm : 0 < b.mdp)
    (hs : setupC b.mdp (inp b) = .ok s) (ha0 : 0 ≤ (linkOf b).unbarredReference D₀)
    {k : ℕ} {jd : Int} {d dt : ℝ} {p r : PropSt ℝ} {rows : List (AreaRow ℝ)} (I : SInv b s p) (hi : CacheInv p)
    (hk : p.klim.map fixKlim = some 5) (hmd : p.mdvar = some 3) (h0 : 0 < d) (hdt : 0 < dt) (hds2 : ndc ≤ jd ∨ 0 < ds2)
    (hst : (linkOf b).dlsa ≤ 1000 * d ∨ p.wlos = true ∧ p.aref = some ((linkOf b).unbarredReference D₀))
    (h : areaLoop zt zl zc ndc ds2 k jd d dt p = .ok (rows, r)) :
    List.Forall₂ (RowExact b zt zl D₀) ((gridDist ndc ds2 k jd d dt).flatMap fun d => zc.map fun c => (d, c)) rows := by
  induction k generalizing jd d dt p rows with
  | zero =>
    unfold areaLoop at h
    rw [pure_ok, ok_inj] at h
    obtain ⟨rfl, rfl⟩ := Prod.mk.inj h
    exact .nil
  | succ k ih =>
    unfold areaLoop at h
    obtain ⟨q, hq, h⟩ := bind_eq_ok.1 h
    obtain ⟨fs, hfs, h⟩ := bind_eq_ok.1 h
    obtain ⟨⟨r1, q1⟩, h1, h⟩ := bind_eq_ok.1 h
    obtain ⟨⟨r2, q2⟩, h2, h⟩ := bind_eq_ok.1 h
    dsimp only at h
    rw [pure_ok, ok_inj] at h
    obtain ⟨rfl, rfl⟩ := Prod.mk.inj h
    have I' : SInv b s { p with lvar := max 1 p.lvar } := ⟨I.mdp, I.inp, I.hor, I.diff, I.line, I.cache⟩
    obtain ⟨Iq, hw, -⟩ := cont_inv I' hq
    have hiq : CacheInv q := cacheInv_lrFrame (hi.raise (n := max 1 p.lvar) (by omega)) (by simp only; omega) (lrprop_frame hq)
    have hdq := lrprop_dist hq
    have hm' : (0:Int) ≤ ({ p with lvar := max 1 p.lvar } : PropSt ℝ).mdp := I.mdp.ge
    rw [if_pos hm', if_pos hm'] at hdq
    have e1000 : ∀ x : ℝ, x * 1000.0 = 1000 * x := fun x => by norm_num; ring
    rw [e1000] at hdq hq
    have hkq : q.klim = p.klim ∧ q.mdvar = p.mdvar := by
      obtain ⟨_, _, _, _, _, _, _, rfl⟩ := lrprop_frame hq
      exact ⟨rfl, rfl⟩
    obtain ⟨⟨i1, k1, f1⟩, g1⟩ := areaInner_ok hiq h1
    have I1 : SInv b s q1 := by
      obtain ⟨_, _, _, _, _, _, _, _, rfl⟩ := f1
      exact ⟨Iq.mdp, Iq.inp, Iq.hor, Iq.diff, Iq.line, Iq.cache⟩
    have hk1 : q1.klim.map fixKlim = some 5 := by
      have : q1.klim.map fixKlim = q.klim.map fixKlim := congrArg Prod.fst k1
      rw [this, hkq.1]; exact hk
    have hm1 : q1.mdvar = some 3 := by
      obtain ⟨_, _, _, _, _, _, _, _, rfl⟩ := f1
      exact hkq.2.trans hmd
    have hf1 : q1.wlos = q.wlos ∧ q1.aref = q.aref := by
      obtain ⟨_, _, _, _, _, _, _, _, rfl⟩ := f1
      exact ⟨rfl, rfl⟩
    obtain ⟨_, ⟨el, _⟩, _⟩ := line_spec hs
    have hdt' : 0 < if jd + 1 = ndc then ds2 else dt := by
      split_ifs with c
      · exact hds2.resolve_left (by omega)
      · exact hdt
    have hds2' : ndc ≤ jd + 1 ∨ 0 < ds2 := hds2.imp (fun h => by omega) id
    unfold gridDist
    rw [List.flatMap_cons]
    by_cases hD : (linkOf b).dlsa ≤ 1000 * d
    · refine List.rel_append ?_ (ih I1 i1 hk1 hm1 (by linarith) hdt' hds2' (.inl (by linarith)) h2)
      have := inner_with (a := (linkOf b).unbarredReference (1000 * d)) hiq Iq.inp (by rw [hkq.1]; exact hk) (hkq.2.trans hmd) hdq.1 hfs
        (cont_exact hm hs I' hq hD) h1
      rw [List.forall₂_map_left_iff] at this ⊢
      refine this.imp fun c row hr => ?_
      unfold RowExact attDist
      rw [if_neg (not_lt.2 hD)]
      exact hr
    · obtain ⟨w, ha⟩ := hst.resolve_left hD
      have ha' : q.aref = some ((linkOf b).unbarredReference D₀) :=
        cont_stale I' w ha ha0 (by linarith) (by rw [el]; exact not_le.1 hD) hq
      refine List.rel_append ?_ (ih I1 i1 hk1 hm1 (by linarith) hdt' hds2' (.inr ⟨by rw [hf1.1]; exact hw w, by rw [hf1.2]; exact ha'⟩) h2)
      have := inner_with hiq Iq.inp (by rw [hkq.1]; exact hk) (hkq.2.trans hmd) hdq.1 hfs ha' h1
      rw [List.forall₂_map_left_iff] at this ⊢
      refine this.imp fun c row hr => ?_
      unfold RowExact attDist
      rw [if_pos (not_le.1 hD)]
      exact hr

end Itm
