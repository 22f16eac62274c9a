import Verif.Lemmas.Leak

/-! The point-to-point runner. -/

namespace Itm
open Spec Props
variable {α : Type} [PyNum α]

/-- The part of the set-up that can fail. -/
def p2pSys (fmhz d : α) (ipol : Int) (profile : List α) : Py (α × Cx α) := do
  let np : Int := profile.length - 1
  let dkm := if d ≤ 0.0 then 0.0 * PyNum.ofInt np else d
  let xi ← (dkm * 1000.0) /! PyNum.ofInt np
  let zq ← groundZq (15.0 : α) 0.005 (fmhz / 47.7)
  let zgnd := Cx.sqrt (Cx.sub zq ⟨1.0, 0.0⟩)
  let zgnd ← if ipol ≠ 0 then Cx.div zgnd zq else pure zgnd
  pure (xi, zgnd)

theorem p2pSetup_eq (p : PropSt α) (profile : List α) :
    p2pSetup p profile = (do
      let (xi, zgnd) ← p2pSys p.fmhz p.d p.ipol profile
      pure { p with eps := 15.0, sgm := 0.005, klim := some 5, ens0 := 314.0, lvar := 5, gma := 157e-9,
                    pfl := { np := profile.length - 1, xi, z := profile }, kwx := 0, wn := p.fmhz / 47.7, ens := 314.0,
                    gme := effCurvature 157e-9 314.0, zgnd, klimx := 0, mdvarx := 11 }) := by
  unfold p2pSys p2pSetup
  simp only [bind_assoc, pure_bind]
  refine congrArg₂ bind rfl (funext fun xi => ?_)
  refine congrArg₂ bind rfl (funext fun zq => ?_)
  by_cases h : p.ipol ≠ 0
  · simp only [h, if_true, ne_eq, not_false_eq_true, bind_assoc, pure_bind]
  · simp only [h, if_false, pure_bind]

theorem p2pSetup_ok {p s : PropSt α} {profile : List α} (h : p2pSetup p profile = .ok s) :
    ∃ xi zgnd, p2pSys p.fmhz p.d p.ipol profile = .ok (xi, zgnd) ∧
      s = { p with eps := 15.0, sgm := 0.005, klim := some 5, ens0 := 314.0, lvar := 5, gma := 157e-9,
                    pfl := { np := profile.length - 1, xi, z := profile }, kwx := 0, wn := p.fmhz / 47.7, ens := 314.0,
                    gme := effCurvature 157e-9 314.0, zgnd, klimx := 0, mdvarx := 11 } := by
  rw [p2pSetup_eq] at h
  obtain ⟨⟨xi, zgnd⟩, h1, h⟩ := bind_eq_ok.1 h
  dsimp only at h
  rw [pure_ok, ok_inj] at h
  exact ⟨xi, zgnd, h1, h.symm⟩

/-- The dictionary the rows are computed from. -/
structure P2PPrep (p : PropSt α) (profile : List α) (q : PropSt α) : Prop where
  inv : CacheInv q
  fmhz : q.fmhz = p.fmhz
  d : q.d = p.d
  hg : q.hg = p.hg
  ipol : q.ipol = p.ipol
  klim : q.klim = some 5
  mdvar : q.mdvar = some 11
  wn : q.wn = p.fmhz / 47.7
  np : q.pfl.np = profile.length - 1

theorem p2pPrep_ok {p s q : PropSt α} {profile : List α} (h : p2pSetup p profile = .ok s) (hq : qlrpfl s = .ok q) :
    P2PPrep p profile q := by
  obtain ⟨xi, zgnd, _, rfl⟩ := p2pSetup_ok h
  unfold qlrpfl at hq
  rw [qlrpflPrep_eq] at hq
  obtain ⟨r, hr, hq⟩ := bind_eq_ok.1 hq
  obtain ⟨g, _, hr⟩ := bind_eq_ok.1 hr
  rw [pure_ok, ok_inj] at hr
  rw [prepMarks_eq] at hr
  have hf := lrprop_frame hq
  have hi : CacheInv q := by
    refine cacheInv_lrFrame ?_ ?_ hf
    · refine cacheInv_of_five ?_
      rw [← hr]; simp
    · rw [← hr]; simp
  obtain ⟨_, _, _, _, _, _, _, rfl⟩ := hf
  subst hr
  exact ⟨hi, rfl, rfl, rfl, rfl, rfl, rfl, rfl, rfl⟩

theorem itmlogicP2PAt_ok {qc qr : List Int} {p r : PropSt α} {profile : List α} {rows : List (P2PRow α)} {msgs : List P2PMsg}
    (h : itmlogicP2PAt qc qr p profile = .ok (rows, msgs, r)) :
    ∃ s q fs zr zc, p2pSetup p profile = .ok s ∧ qlrpfl s = .ok q ∧ freeSpace q.wn q.dist = .ok fs ∧
      p2pReport q = .ok msgs ∧ qerfi (qr.map percent) = .ok zr ∧ qerfi (qc.map percent) = .ok zc ∧
      p2pRows fs (qc.zip zc) (qr.zip zr) q = .ok (rows, r) := by
  unfold itmlogicP2PAt at h
  obtain ⟨s, hs, h⟩ := bind_eq_ok.1 h
  obtain ⟨zr, hzr, h⟩ := bind_eq_ok.1 h
  obtain ⟨zc, hzc, h⟩ := bind_eq_ok.1 h
  obtain ⟨q, hq, h⟩ := bind_eq_ok.1 h
  obtain ⟨fs, hfs, h⟩ := bind_eq_ok.1 h
  obtain ⟨ms, hms, h⟩ := bind_eq_ok.1 h
  obtain ⟨⟨rs, r'⟩, hrs, h⟩ := bind_eq_ok.1 h
  dsimp only at h
  rw [pure_ok, ok_inj] at h
  simp only [Prod.mk.injEq] at h
  obtain ⟨rfl, rfl, rfl⟩ := h
  exact ⟨s, q, fs, zr, zc, hs, hq, hfs, hms, hzr, hzc, hrs⟩

/-- Rows of the runner, by request pair. -/
theorem p2pRows_for {qc qr : List Int} {zc zr : List α} {fs : α} {q r : PropSt α} {rows : List (P2PRow α)} (hi : CacheInv q)
    (hzr : qerfi (qr.map percent) = .ok zr) (hzc : qerfi (qc.map percent) = .ok zc)
    (h : p2pRows fs (qc.zip zc) (qr.zip zr) q = .ok (rows, r)) :
    List.Forall₂ (fun x row => P2PRowFor q q.d fs x.1 x.2 row) (pairs qr qc) rows := by
  obtain ⟨_, hf⟩ := p2pRows_ok hi h
  have h1 := zip_deviates hzr
  have h2 := zip_deviates hzc
  have h3 : List.Forall₂ (fun (x : Int × Int) (y : (Int × α) × (Int × α)) =>
      (y.1.1 = x.1 ∧ DeviateOf x.1 y.1.2) ∧ (y.2.1 = x.2 ∧ DeviateOf x.2 y.2.2)) (pairs qr qc)
      ((qr.zip zr).flatMap fun r => (qc.zip zc).map fun c => (r, c)) := by
    unfold pairs
    clear h hf hzr hzc
    generalize qr.zip zr = R at h1
    generalize qc.zip zc = C at h2
    induction h1 with
    | nil => exact .nil
    | cons hd _ ih =>
      rw [List.flatMap_cons, List.flatMap_cons]
      refine List.rel_append ?_ ih
      rw [List.forall₂_map_left_iff, List.forall₂_map_right_iff]
      exact h2.imp fun _ _ h => ⟨hd, h⟩
  clear h h1 h2 hzr hzc
  generalize (pairs qr qc) = X at h3
  generalize ((qr.zip zr).flatMap fun r => (qc.zip zc).map fun c => (r, c)) = Y at h3 hf
  induction h3 generalizing rows with
  | nil => cases hf; exact .nil
  | cons hd _ ih =>
    cases hf with
    | cons g1 g2 =>
      refine .cons ?_ (ih g2)
      obtain ⟨⟨e1, d1⟩, ⟨e2, d2⟩⟩ := hd
      obtain ⟨a1, a2, a3, a, a4, a5⟩ := g1
      obtain ⟨q', hq'⟩ := ans_avar hi a4
      exact ⟨a1, a2.trans e1, a3.trans e2, _, _, a, q', d1, d2, hq', a5⟩

/-- Two runs on dictionaries that agree on the user's inputs, over profiles with equal path parameters. -/
theorem p2p_rel_geom (ho : Ordered α) (qc qr : List Int) {p p' : PropSt α} {profile profile' : List α} (hf : p.fmhz = p'.fmhz) (hd : p.d = p'.d)
    (hg : p.hg = p'.hg) (hi : p.ipol = p'.ipol) (hl : profile'.length = profile.length)
    (hgeo : ∀ xi zgnd, p2pSys p.fmhz p.d p.ipol profile = .ok (xi, zgnd) →
      geomC { np := profile.length - 1, xi, z := profile } p.hg (effCurvature 157e-9 314.0) =
        geomC { np := profile.length - 1, xi, z := profile' } p.hg (effCurvature 157e-9 314.0)) :
    ExRel (fun x y => x.1 = y.1 ∧ x.2.1 = y.2.1) (itmlogicP2PAt qc qr p profile) (itmlogicP2PAt qc qr p' profile') := by
  unfold itmlogicP2PAt
  have hsys : p2pSys p'.fmhz p'.d p'.ipol profile' = p2pSys p.fmhz p.d p.ipol profile := by
    rw [← hf, ← hd, ← hi]
    unfold p2pSys
    rw [hl]
  rw [p2pSetup_eq, p2pSetup_eq, hsys, ← hf, hl]
  simp only [bind_assoc, pure_bind]
  refine ExRel.bind_same _ fun x hx => ?_
  obtain ⟨xi, zgnd⟩ := x
  refine ExRel.bind_same _ fun zr _ => ?_
  refine ExRel.bind_same _ fun zc _ => ?_
  unfold qlrpfl
  rw [qlrpflPrep_eq, qlrpflPrep_eq]
  simp only [← hg, bind_assoc, pure_bind, ← hgeo xi zgnd hx]
  refine ExRel.bind_same _ fun g _ => ?_
  rw [prepMarks_eq, prepMarks_eq]
  refine (lrprop_rel ho 0.0 (?_ : LrRel _ _) ?_).mono (S := fun x y => LrOut x y ∧ CacheInv x ∧ CacheInv y ∧ x.hor.isSome ∧
      x.pfl.xi = y.pfl.xi ∧ x.d = y.d ∧ x.klim = y.klim ∧ x.mdvar = y.mdvar) ?_ |>.bind fun x y hxy => ?_
  · refine ⟨rfl, rfl, fun _ => rfl, fun h => absurd h (by simp)⟩
  · exact fun h => absurd h (by simp)
  · intro x y hx hy hxy
    obtain ⟨h1, h2, h3⟩ := hxy
    have fx := lrprop_frame hx
    have fy := lrprop_frame hy
    refine ⟨h1, cacheInv_lrFrame (cacheInv_of_five (by simp)) (by simp) fx,
      cacheInv_lrFrame (cacheInv_of_five (by simp)) (by simp) fy, h2, ?_⟩
    obtain ⟨_, _, _, _, _, _, _, rfl⟩ := fx
    obtain ⟨_, _, _, _, _, _, _, rfl⟩ := fy
    exact ⟨rfl, hd, rfl, rfl⟩
  · obtain ⟨h1, i1, i2, hs, e1, e2, e3, e4⟩ := hxy
    have hin := h1.inp
    unfold inp at hin
    injection hin with a1 a2 a3 a4 a5 a6 a7 a8 a9
    rw [← a5, ← h1.dist]
    refine ExRel.bind_same _ fun fs _ => ?_
    have hrep : p2pReport x = p2pReport y := by
      obtain ⟨h, eh⟩ := Option.isSome_iff_exists.1 hs
      unfold p2pReport
      rw [← h1.hor, ← h1.dist, ← e1]
      rw [eh, need_some, ok_bind, ok_bind]
      by_cases hd : x.dist ≤ h.dlsa
      · simp only [hd, if_true]
      · have hd' : h.dlsa ≤ x.dist := ho.le_of_lt _ _ ((ho.lt_or_le h.dlsa x.dist).resolve_right hd)
        rw [h1.scat h eh hd']
    rw [hrep]
    refine ExRel.bind_same _ fun ms _ => ?_
    refine (p2pRows_rel fs _ _ ?_).bind fun u v huv => ?_
    · refine ⟨⟨i1, i2, ?_⟩, e2⟩
      unfold ansKey
      rw [e3, e4, a5, a2, h1.dist, a6, h1.aref]
    · obtain ⟨u1, u2⟩ := u
      obtain ⟨v1, v2⟩ := v
      exact ⟨huv.1, rfl⟩

/-- Two runs on dictionaries that agree on the user's inputs. -/
theorem p2p_rel (ho : Ordered α) (qc qr : List Int) {p p' : PropSt α} (profile : List α) (hf : p.fmhz = p'.fmhz) (hd : p.d = p'.d)
    (hg : p.hg = p'.hg) (hi : p.ipol = p'.ipol) :
    ExRel (fun x y => x.1 = y.1 ∧ x.2.1 = y.2.1) (itmlogicP2PAt qc qr p profile) (itmlogicP2PAt qc qr p' profile) :=
  p2p_rel_geom ho qc qr hf hd hg hi rfl fun _ _ _ => rfl

/-- The run keeps the user's inputs. -/
theorem p2p_keeps {qc qr : List Int} {p r : PropSt α} {profile : List α} {rows : List (P2PRow α)} {msgs : List P2PMsg}
    (h : itmlogicP2PAt qc qr p profile = .ok (rows, msgs, r)) :
    r.fmhz = p.fmhz ∧ r.d = p.d ∧ r.hg = p.hg ∧ r.ipol = p.ipol := by
  obtain ⟨s, q, fs, zr, zc, hs, hq, _, _, _, _, hr⟩ := itmlogicP2PAt_ok h
  have hp := p2pPrep_ok hs hq
  obtain ⟨⟨_, _, hf⟩, _⟩ := p2pRows_ok hp.inv hr
  obtain ⟨_, _, _, _, _, _, _, _, rfl⟩ := hf
  exact ⟨hp.fmhz, hp.d, hp.hg, hp.ipol⟩

end Itm
