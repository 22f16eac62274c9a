import Verif.Lemmas.Leak
import Verif.Props.C16

/-! The area runner. -/

namespace Itm
open Spec Props
variable {α : Type} [PyNum α]

/-- The distances of the loop: `k` turns from turn `jd`. -/
def gridDist (ndc : Int) (ds2 : α) : Nat → Int → α → α → List α
  | 0, _, _, _ => []
  | k + 1, jd, d, dt => d :: gridDist ndc ds2 k (jd + 1) (d + (if jd + 1 = ndc then ds2 else dt)) (if jd + 1 = ndc then ds2 else dt)

/-- A row of the loop. -/
def LoopRow (wn zt zl : α) (x : α × Int × α) (row : AreaRow α) : Prop :=
  ∃ q fs a, CacheInv q ∧ q.dist = x.1 * 1000.0 ∧ q.wn = wn ∧ freeSpace wn (x.1 * 1000.0) = .ok fs ∧
    row.distance_km = x.1 ∧ row.confidence = x.2.1 ∧ freshAns zt zl x.2.2 q = .ok a ∧ row.loss = fs + a

theorem areaLoop_ok {zt zl : α} {zc : List (Int × α)} {ndc : Int} {ds2 : α} {k : Nat} {jd : Int} {d dt : α} {p r : PropSt α}
    {rows : List (AreaRow α)} (hi : CacheInv p) (hm : 0 ≤ p.mdp)
    (h : areaLoop zt zl zc ndc ds2 k jd d dt p = .ok (rows, r)) :
    List.Forall₂ (LoopRow p.wn zt zl) ((gridDist ndc ds2 k jd d dt).flatMap fun d => zc.map fun c => (d, c)) rows := by
  induction k generalizing jd d dt p rows with
  | zero =>
    unfold areaLoop at h
    rw [pure_ok, ok_inj] at h
    obtain ⟨rfl, rfl⟩ := Prod.mk.inj h
    exact .nil
  | succ k ih =>
    unfold areaLoop at h
    obtain ⟨q, hq, h⟩ := bind_eq_ok.1 h
    obtain ⟨fs, hfs, h⟩ := bind_eq_ok.1 h
    obtain ⟨⟨r1, q1⟩, h1, h⟩ := bind_eq_ok.1 h
    obtain ⟨⟨r2, q2⟩, h2, h⟩ := bind_eq_ok.1 h
    dsimp only at h
    rw [pure_ok, ok_inj] at h
    obtain ⟨rfl, rfl⟩ := Prod.mk.inj h
    have hiq : CacheInv q := cacheInv_lrFrame (hi.raise (n := max 1 p.lvar) (by omega)) (by simp only; omega) (lrprop_frame hq)
    have hdq := lrprop_dist hq
    have hwn : q.wn = p.wn := by
      obtain ⟨_, _, _, _, _, _, _, rfl⟩ := lrprop_frame hq
      rfl
    have hm' : (0:Int) ≤ ({ p with lvar := max 1 p.lvar } : PropSt α).mdp := hm
    rw [if_pos hm', if_pos hm'] at hdq
    rw [hwn, hdq.1] at hfs
    obtain ⟨⟨i1, k1, f1⟩, g1⟩ := areaInner_ok hiq h1
    have hm1 : 0 ≤ q1.mdp := by
      obtain ⟨_, _, _, _, _, _, _, _, rfl⟩ := f1
      exact hdq.2.ge
    have hw1 : q1.wn = p.wn := by
      obtain ⟨_, _, _, _, _, _, _, _, rfl⟩ := f1
      exact hwn
    have g2 := ih i1 hm1 h2
    unfold gridDist
    rw [List.flatMap_cons]
    refine List.rel_append ?_ ?_
    · rw [List.forall₂_map_left_iff]
      refine g1.imp fun c row hr => ?_
      obtain ⟨e1, e2, a, e3, e4⟩ := hr
      exact ⟨q, fs, a, hiq, hdq.1, hwn, hfs, e1, e2, e3, e4⟩
    · rw [hw1] at g2
      exact g2

/-- States of the loop of two runs. -/
structure AreaRel (p q : PropSt α) : Prop where
  lr : LrRel p q
  some : p.mdp = 0 → p.hor.isSome ∧ p.line.isSome
  left : CacheInv p
  right : CacheInv q
  klim : p.klim.map fixKlim = q.klim.map fixKlim
  mdvar : p.mdvar = q.mdvar
  mdp : 0 ≤ p.mdp

theorem areaLoop_rel (ho : Ordered α) (zt zl : α) (zc : List (Int × α)) (ndc : Int) (ds2 : α) (k : Nat) (jd : Int) (d dt : α)
    {p q : PropSt α} (h : AreaRel p q) :
    ExRel (fun x y => x.1 = y.1) (areaLoop zt zl zc ndc ds2 k jd d dt p) (areaLoop zt zl zc ndc ds2 k jd d dt q) := by
  induction k generalizing jd d dt p q with
  | zero => exact rfl
  | succ k ih =>
    unfold areaLoop
    have hl : LrRel { p with lvar := max 1 p.lvar } { q with lvar := max 1 q.lvar } :=
      ⟨h.lr.inp, h.lr.mdp, h.lr.dist, h.lr.done⟩
    refine (lrprop_rel ho (d * 1000.0) hl h.some).mono (S := fun x y => LrOut x y ∧ (x.hor.isSome ∧ x.line.isSome) ∧ AnsRel x y ∧
      x.klim.map fixKlim = y.klim.map fixKlim ∧ x.mdvar = y.mdvar ∧ x.mdp = 0) ?_ |>.bind fun x y hxy => ?_
    · intro x y hx hy hxy
      obtain ⟨h1, h2⟩ := hxy
      have fx := lrprop_frame hx
      have fy := lrprop_frame hy
      have dx := lrprop_dist hx
      have ix : CacheInv x := cacheInv_lrFrame (h.left.raise (n := max 1 p.lvar) (by omega)) (by simp only; omega) fx
      have iy : CacheInv y := cacheInv_lrFrame (h.right.raise (n := max 1 q.lvar) (by omega)) (by simp only; omega) fy
      have hm' : (0:Int) ≤ ({ p with lvar := max 1 p.lvar } : PropSt α).mdp := h.mdp
      rw [if_pos hm', if_pos hm'] at dx
      have ek : x.klim.map fixKlim = y.klim.map fixKlim := by
        obtain ⟨_, _, _, _, _, _, _, rfl⟩ := fx
        obtain ⟨_, _, _, _, _, _, _, rfl⟩ := fy
        exact h.klim
      have em : x.mdvar = y.mdvar := by
        obtain ⟨_, _, _, _, _, _, _, rfl⟩ := fx
        obtain ⟨_, _, _, _, _, _, _, rfl⟩ := fy
        exact h.mdvar
      refine ⟨h1, h2, ⟨ix, iy, ?_⟩, ek, em, dx.2⟩
      have hin := h1.inp
      unfold inp at hin
      injection hin with a1 a2 a3 a4 a5 a6 a7 a8 a9
      unfold ansKey
      rw [ek, em, a5, a2, h1.dist, a6, h1.aref]
    · obtain ⟨h1, h2, h3, h4, h5, h6⟩ := hxy
      have hin := h1.inp
      unfold inp at hin
      injection hin with a1 a2 a3 a4 a5 a6 a7 a8 a9
      rw [← a5, ← h1.dist]
      refine ExRel.bind_same _ fun fs _ => ?_
      refine (areaInner_rel d fs zt zl zc h3).bind fun u v huv => ?_
      obtain ⟨u1, u2⟩ := u
      obtain ⟨v1, v2⟩ := v
      obtain ⟨rfl, g1, g2, g3⟩ := huv
      dsimp only at g1 g2 g3 ⊢
      refine (ih (p := u2) (q := v2) _ _ _ ?_).bind fun u v huv => ?_
      · have i1 := g1.left
        have i2 := g1.right
        have key := g1.key
        obtain ⟨_, _, _, _, _, _, _, _, rfl⟩ := g2
        obtain ⟨_, _, _, _, _, _, _, _, rfl⟩ := g3
        refine ⟨⟨h1.inp, h1.mdp, fun _ => h1.dist, fun _ => ⟨h1.hor, h1.line, h1.cache, h1.aref⟩⟩, fun _ => h2, i1, i2, ?_, h5, h6.ge⟩
        exact congrArg Prod.fst key
      · obtain ⟨u1, u2⟩ := u
        obtain ⟨v1, v2⟩ := v
        have huv : u1 = v1 := huv
        subst huv
        exact rfl

/-- The part of the set-up that can fail. -/
def areaSys (fmhz : α) (ipol : Int) : Py (Cx α) := do
  let zq ← groundZq (15.0 : α) 0.001 (fmhz / 47.7)
  let zgnd : Cx α := ⟨← mathSqrt (zq.re - 1.0), 0.0⟩
  if ipol ≠ 0 then Cx.div zgnd zq else pure zgnd

theorem areaSetup_eq (p : PropSt α) :
    areaSetup p = (do
      let zgnd ← areaSys p.fmhz p.ipol
      pure { p with ens0 := 301.0, eps := 15.0, sgm := 0.001, klimx := 5, mdvarx := 3, gma := 157e-9, kwx := 0,
                    wn := p.fmhz / 47.7, ens := 301.0, gme := effCurvature 157e-9 301.0, lvar := 0, zgnd }) := by
  unfold areaSys areaSetup
  simp only [bind_assoc]
  refine congrArg₂ bind rfl (funext fun zq => ?_)
  refine congrArg₂ bind rfl (funext fun z => ?_)
  by_cases h : p.ipol ≠ 0
  · simp only [h, if_true, ne_eq, not_false_eq_true]
  · simp only [h, if_false, pure_bind]

/-- The path parameters `qlra` derives. -/
def qlraC (kst : Pair Int) (hg : Pair α) (gme dh : α) : Py (Pair α × Pair α × Pair α) := do
  let he0 := qlraHe kst.x0 hg.x0 dh
  let (dl0, the0) ← qlraHorizon he0 gme dh
  let he1 := qlraHe kst.x1 hg.x1 dh
  let (dl1, the1) ← qlraHorizon he1 gme dh
  pure (⟨he0, he1⟩, ⟨dl0, dl1⟩, ⟨the0, the1⟩)

theorem qlra_eq (kst : Pair Int) (p : PropSt α) :
    qlra kst p = (do
      let (he, dl, the) ← qlraC kst p.hg p.gme p.dh
      pure (prepMarks { p with he, dl, the, mdp := 1 })) := by
  unfold qlra qlraC
  simp only [bind_assoc, pure_bind]

theorem area_rel (ho : Ordered α) (qt ql : Int) (qc : List Int) (g : Grid α) (kst : Pair Int) {p p' : PropSt α} (hf : p.fmhz = p'.fmhz)
    (hd : p.dh = p'.dh) (hg : p.hg = p'.hg) (hi : p.ipol = p'.ipol) :
    ExRel (fun x y => x.1 = y.1) (itmlogicAreaAt qt ql qc g kst p) (itmlogicAreaAt qt ql qc g kst p') := by
  unfold itmlogicAreaAt
  refine ExRel.bind_same _ fun zt _ => ?_
  refine ExRel.bind_same _ fun zl _ => ?_
  refine ExRel.bind_same _ fun zc _ => ?_
  refine ExRel.bind_same _ fun zt0 _ => ?_
  refine ExRel.bind_same _ fun zl0 _ => ?_
  rw [areaSetup_eq, areaSetup_eq, ← hf, ← hi]
  simp only [bind_assoc, pure_bind]
  refine ExRel.bind_same _ fun zgnd _ => ?_
  rw [qlra_eq, qlra_eq]
  simp only [← hg, ← hd, bind_assoc, pure_bind]
  refine ExRel.bind_same _ fun x _ => ?_
  cases (areaPlan g).ds with
  | none => exact rfl
  | some dt =>
  dsimp only
  rw [prepMarks_eq, prepMarks_eq]
  refine areaLoop_rel ho _ _ _ _ _ _ _ _ _ ?_
  refine ⟨⟨?_, rfl, fun h => absurd h (by simp), fun h => absurd h (by simp)⟩, fun h => absurd h (by simp),
    cacheInv_of_five (by simp), cacheInv_of_five (by simp), rfl, rfl, by simp⟩
  unfold inp
  simp only [hd, hg]

theorem itmlogicAreaAt_ok {qt ql : Int} {qc : List Int} {g : Grid α} {kst : Pair Int} {p r : PropSt α} {rows : List (AreaRow α)}
    (h : itmlogicAreaAt qt ql qc g kst p = .ok (rows, r)) :
    ∃ zt zl zc s q dt, DeviateOf qt zt ∧ DeviateOf ql zl ∧ qerfi (qc.map percent) = .ok zc ∧ areaSetup p = .ok s ∧
      qlra kst s = .ok q ∧ (areaPlan g).ds = some dt ∧
      areaLoop zt zl (qc.zip zc) (areaPlan g).ndc (areaPlan g).ds2 (areaPlan g).nd.toNat 0 (areaPlan g).d0 dt q = .ok (rows, r) := by
  unfold itmlogicAreaAt at h
  obtain ⟨zt, h1, h⟩ := bind_eq_ok.1 h
  obtain ⟨zl, h2, h⟩ := bind_eq_ok.1 h
  obtain ⟨zc, h3, h⟩ := bind_eq_ok.1 h
  obtain ⟨zt0, h4, h⟩ := bind_eq_ok.1 h
  obtain ⟨zl0, h5, h⟩ := bind_eq_ok.1 h
  obtain ⟨s, h6, h⟩ := bind_eq_ok.1 h
  obtain ⟨q, h7, h⟩ := bind_eq_ok.1 h
  dsimp only at h
  have hz : ∀ (x : Int) (z : List α) (z0 : α), qerfi [percent x] = .ok z → pyGet z 0 = .ok z0 → DeviateOf x z0 := by
    intro x z z0 e1 e2
    have e3 := (C04_qerfi_entries _ _).1 e1
    cases e3 with
    | cons a b =>
      cases b
      have : z0 = _ := (ok_inj.1 e2).symm
      rw [this]
      exact a
  cases hds : (areaPlan g).ds with
  | none => rw [hds] at h; exact absurd h (by intro h; cases h)
  | some ds =>
    rw [hds] at h
    exact ⟨zt0, zl0, zc, s, q, ds, hz _ _ _ h1 h4, hz _ _ _ h2 h5, h3, h6, h7, rfl, h⟩

end Itm
