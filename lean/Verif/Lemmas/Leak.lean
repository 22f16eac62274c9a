import Verif.Lemmas.Rows
import Verif.Props.C07

/-! Leftover dictionary contents do not influence the runners. -/

namespace Itm
open Spec Props
variable {α : Type} [PyNum α]

/-! ### `lrprop` on related caches -/

/-- Caches that agree on everything that will be read. -/
structure CRel (c c' : LrCache α) : Prop where
  wlos : c.wlos = c'.wlos
  wscat : c.wscat = c'.wscat
  ascat1 : c.ascat1 = c'.ascat1
  scat : c.wscat = true → c.scat = c'.scat

theorem losStage_rel (i : LrIn α) (h : Horizon α) (l : DiffLine α) (dist : α) {c c' : LrCache α} (hc : CRel c c')
    (ha : c.wlos = true → c.aref = c'.aref) :
    ExRel (fun x y => CRel x y ∧ (dist < h.dlsa → 0.0 < dist → x.aref = y.aref)) (losStage i h l dist c) (losStage i h l dist c') := by
  unfold losStage
  by_cases h1 : dist < h.dlsa
  · rw [if_pos h1, if_pos h1]
    cases hw : c.wlos with
    | true =>
      have hw' := hc.wlos.symm.trans hw
      rw [if_neg (by simp), if_neg (by simp [hw'])]
      exact ⟨hc, fun _ _ => ha hw⟩
    | false =>
      have hw' := hc.wlos.symm.trans hw
      rw [if_pos rfl, if_pos hw']
      refine ExRel.bind_same _ fun k _ => ?_
      by_cases h2 : 0.0 < dist
      · rw [if_pos h2, if_pos h2]
        refine ExRel.bind_same _ fun a _ => ?_
        exact ⟨⟨rfl, hc.wscat, hc.ascat1, hc.scat⟩, fun _ _ => rfl⟩
      · rw [if_neg h2, if_neg h2]
        exact ⟨⟨rfl, hc.wscat, hc.ascat1, hc.scat⟩, fun _ h => absurd h h2⟩
  · rw [if_neg h1, if_neg h1]
    exact ⟨hc, fun h => absurd h h1⟩

theorem scatStage_rel (ho : Ordered α) (i : LrIn α) (h : Horizon α) (l : DiffLine α) (dist : α) {c c' : LrCache α} (hc : CRel c c')
    (ha : dist < h.dlsa → 0.0 < dist → c.aref = c'.aref) :
    ExRel (fun x y => CRel x y ∧ x.aref = y.aref ∧ (dist ≤ 0.0 ∨ h.dlsa ≤ dist → x.wscat = true))
      (scatStage i h l dist c) (scatStage i h l dist c') := by
  unfold scatStage
  by_cases h1 : dist ≤ 0.0 ∨ h.dlsa ≤ dist
  · rw [if_pos h1, if_pos h1]
    have hs : ExRel (fun x y => CRel x y ∧ x.wscat = true) (scatSetupStage i h l c) (scatSetupStage i h l c') := by
      unfold scatSetupStage
      cases hw : c.wscat with
      | true =>
        have hw' := hc.wscat.symm.trans hw
        rw [if_neg (by simp), if_neg (by simp [hw'])]
        exact ⟨hc, hw⟩
      | false =>
        have hw' := hc.wscat.symm.trans hw
        rw [if_pos rfl, if_pos hw', hc.ascat1]
        refine ExRel.bind_same _ fun k _ => ?_
        exact ⟨⟨hc.wlos, rfl, rfl, fun _ => rfl⟩, rfl⟩
    refine hs.bind fun x y hxy => ?_
    obtain ⟨hxy, hw⟩ := hxy
    rw [hxy.scat hw]
    refine ExRel.bind_same _ fun k _ => ?_
    exact ⟨⟨hxy.wlos, hxy.wscat, hxy.ascat1, fun _ => rfl⟩, rfl, fun _ => hw⟩
  · rw [if_neg h1, if_neg h1]
    have h0 : 0.0 < dist := (ho.lt_or_le 0.0 dist).resolve_right fun h => h1 (.inl h)
    have h2 : dist < h.dlsa := (ho.lt_or_le dist h.dlsa).resolve_right fun h => h1 (.inr h)
    exact ⟨hc, ha h2 h0, fun h => absurd h h1⟩

theorem runC_rel (ho : Ordered α) (i : LrIn α) (h : Horizon α) (l : DiffLine α) (dist : α) {c c' : LrCache α} (hc : CRel c c')
    (ha : c.wlos = true → c.aref = c'.aref) :
    ExRel (fun x y => CRel x y ∧ x.aref = y.aref ∧ (dist ≤ 0.0 ∨ h.dlsa ≤ dist → x.wscat = true))
      (runC i h l dist c) (runC i h l dist c') := by
  unfold runC
  refine (losStage_rel i h l dist hc ha).bind fun x y hxy => ?_
  refine (scatStage_rel ho i h l dist hxy.1 hxy.2).bind fun x y hxy => ?_
  obtain ⟨r, ra, rs⟩ := hxy
  unfold clampStage
  rw [ra]
  refine ExRel.bind_same _ fun a _ => ?_
  exact ⟨⟨r.wlos, r.wscat, r.ascat1, r.scat⟩, rfl, rs⟩

/-- Agreement on what `lrprop` and its callers read. -/
structure LrRel (p q : PropSt α) : Prop where
  inp : inp p = inp q
  mdp : p.mdp = q.mdp
  dist : p.mdp < 0 → p.dist = q.dist
  done : p.mdp = 0 → p.hor = q.hor ∧ p.line = q.line ∧ CRel (cacheOf p) (cacheOf q) ∧ p.aref = q.aref

/-- What `lrprop` leaves behind on related dictionaries. -/
structure LrOut (p q : PropSt α) : Prop where
  inp : Itm.inp p = Itm.inp q
  mdp : p.mdp = q.mdp
  dist : p.dist = q.dist
  hor : p.hor = q.hor
  line : p.line = q.line
  cache : CRel (cacheOf p) (cacheOf q)
  aref : p.aref = q.aref
  scat : ∀ h, p.hor = some h → h.dlsa ≤ p.dist → p.scat = q.scat

theorem lrprop_rel (ho : Ordered α) (d : α) {p q : PropSt α} (h : LrRel p q) (hn : p.mdp = 0 → p.hor.isSome ∧ p.line.isSome) :
    ExRel (fun x y => LrOut x y ∧ x.hor.isSome ∧ x.line.isSome) (lrprop d p) (lrprop d q) := by
  by_cases hm : p.mdp = 0
  · have hm' := h.mdp.symm.trans hm
    obtain ⟨h1, h2, h3, h4⟩ := h.done hm
    obtain ⟨n1, n2⟩ := hn hm
    obtain ⟨hz, e1⟩ := Option.isSome_iff_exists.1 n1
    obtain ⟨l, e2⟩ := Option.isSome_iff_exists.1 n2
    rw [lrprop_cont hm e1 e2, lrprop_cont hm' (h1.symm.trans e1) (h2.symm.trans e2), ← h.inp]
    refine (runC_rel ho _ hz l d h3 fun _ => h4).bind fun x y hxy => ?_
    obtain ⟨r, ra, rs⟩ := hxy
    refine ⟨⟨h.inp, rfl, rfl, h1, h2, ⟨r.wlos, r.wscat, r.ascat1, r.scat⟩, ra, ?_⟩, n1, n2⟩
    intro k hk hd
    have : hz = k := Option.some.inj (e1.symm.trans hk)
    subst this
    exact r.scat (rs (.inr hd))
  · have hm' : q.mdp ≠ 0 := by rw [← h.mdp]; exact hm
    rw [lrprop_setup hm, lrprop_setup hm', ← h.inp, ← h.mdp]
    refine ExRel.bind_same _ fun s _ => ?_
    have ed : distOf q d = distOf p d := by 
      unfold distOf
      by_cases h0 : 0 ≤ p.mdp
      · rw [if_pos h0, if_pos (h.mdp ▸ h0)]
      · rw [if_neg h0, if_neg (h.mdp ▸ h0), h.dist (by omega)]
    have em : mdpOf q = mdpOf p := by unfold mdpOf; rw [h.mdp]
    rw [ed, em]
    refine (runC_rel ho (inp p) s.h s.l (distOf p d) (c := { cacheOf p with wlos := false, wscat := false, ascat1 := 0.0 })
      (c' := { cacheOf q with wlos := false, wscat := false, ascat1 := 0.0 }) ⟨rfl, rfl, rfl, fun h => ?_⟩ fun h => ?_).bind
        fun x y hxy => ?_
    · exact absurd h (by simp)
    · exact absurd h (by simp)
    obtain ⟨r, ra, rs⟩ := hxy
    refine ⟨⟨h.inp, rfl, rfl, rfl, rfl, ⟨r.wlos, r.wscat, r.ascat1, r.scat⟩, ra, ?_⟩, rfl, rfl⟩
    intro k hk hd
    have : s.h = k := Option.some.inj hk
    subst this
    exact r.scat (rs (.inr hd))

/-! ### `qlrpflPrep` -/

/-- The path parameters `qlrpfl` derives from the profile. -/
structure Geom (α : Type) where
  dist : α
  dh : α
  he : Pair α
  dl : Pair α
  the : Pair α

/-- The path parameters as a function of the profile, the antenna heights and the curvature. -/
def geomC (pfl : Pfl α) (hg : Pair α) (gme : α) : Py (Geom α) := do
  let q ← qlrpflPrep { blank 0 { hg := hg, he := hg, dl := hg, the := hg, wn := gme, dh := gme, ens := gme, gme := gme, zgnd := ⟨gme, gme⟩ } with pfl := pfl }
  pure ⟨q.dist, q.dh, q.he, q.dl, q.the⟩

theorem prepMarks_geom (p : PropSt α) : (prepMarks p).dist = p.dist ∧ (prepMarks p).dh = p.dh ∧ (prepMarks p).he = p.he ∧
    (prepMarks p).dl = p.dl ∧ (prepMarks p).the = p.the := by
  rw [prepMarks_eq]; exact ⟨rfl, rfl, rfl, rfl, rfl⟩

theorem qlrpflPrep_eq (p : PropSt α) :
    qlrpflPrep p = (do
      let g ← geomC p.pfl p.hg p.gme
      pure (prepMarks { p with dist := g.dist, dh := g.dh, he := g.he, dl := g.dl, the := g.the, mdp := -1 })) := by
  unfold geomC qlrpflPrep
  simp only [bind_assoc, pure_bind, blank]
  refine congrArg₂ bind rfl (funext fun x => ?_)
  obtain ⟨the, dl⟩ := x
  dsimp only
  refine congrArg₂ bind rfl (funext fun dh => ?_)
  by_cases h1 : 1.5 * (PyNum.ofInt p.pfl.np * p.pfl.xi) ≤ dl.x0 + dl.x1
  · simp only [h1, if_true]
    unfold pflLos
    simp only [bind_assoc, pure_bind]
    refine congrArg₂ bind rfl (funext fun x => ?_)
    refine congrArg₂ bind rfl (funext fun z0 => ?_)
    refine congrArg₂ bind rfl (funext fun z1 => ?_)
    refine congrArg₂ bind rfl (funext fun d0 => ?_)
    refine congrArg₂ bind rfl (funext fun d1 => ?_)
    by_cases h2 : d0 + d1 ≤ PyNum.ofInt p.pfl.np * p.pfl.xi
    · simp only [h2, if_true, bind_assoc, pure_bind]
      refine congrArg₂ bind rfl (funext fun y => ?_)
      refine congrArg₂ bind rfl (funext fun d0 => ?_)
      refine congrArg₂ bind rfl (funext fun d1 => ?_)
      refine congrArg₂ bind rfl (funext fun t0 => ?_)
      refine congrArg₂ bind rfl (funext fun t1 => ?_)
      simp only [prepMarks_geom]
    · simp only [h2, if_false, bind_assoc, pure_bind]
      refine congrArg₂ bind rfl (funext fun t0 => ?_)
      refine congrArg₂ bind rfl (funext fun t1 => ?_)
      simp only [prepMarks_geom]
  · simp only [h1, if_false]
    unfold pflObs
    simp only [bind_assoc, pure_bind]
    refine congrArg₂ bind rfl (funext fun x => ?_)
    refine congrArg₂ bind rfl (funext fun x => ?_)
    refine congrArg₂ bind rfl (funext fun z0 => ?_)
    refine congrArg₂ bind rfl (funext fun z1 => ?_)
    simp only [prepMarks_geom]

end Itm
