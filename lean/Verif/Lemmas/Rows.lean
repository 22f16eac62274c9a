import Verif.Lemmas.ExRel
import Verif.Props.C04
import Verif.Spec.Report

/-! The report loops of the runners. -/

namespace Itm
open Spec
variable {α : Type} [PyNum α]

/-! ### point-to-point -/

/-- The part of the dictionary a report row shows or depends on. -/
structure RowRel (p q : PropSt α) : Prop extends AnsRel p q where
  d : p.d = q.d

theorem RowRel.frame {p q p' q' : PropSt α} (h : RowRel p q) (h' : AnsRel p' q') (hp : AvarFrame p p') (hq : AvarFrame q q') :
    RowRel p' q' := by
  refine ⟨h', ?_⟩
  obtain ⟨_, _, _, _, _, _, _, _, rfl⟩ := hp
  obtain ⟨_, _, _, _, _, _, _, _, rfl⟩ := hq
  exact h.d

theorem p2pInner_rel (fs : α) (qr : Int) (zr : α) (L : List (Int × α)) {p q : PropSt α} (h : RowRel p q) :
    ExRel (fun x y => x.1 = y.1 ∧ RowRel x.2 y.2) (p2pInner fs qr zr L p) (p2pInner fs qr zr L q) := by
  induction L generalizing p q with
  | nil => exact ⟨rfl, h⟩
  | cons c L ih =>
    obtain ⟨qc, zc⟩ := c
    unfold p2pInner
    refine (avar_rel h.toAnsRel zr 0.0 zc).bind fun x y hxy => ?_
    obtain ⟨a, p'⟩ := x
    obtain ⟨b, q'⟩ := y
    obtain ⟨rfl, h', f1, f2, _, _⟩ := hxy
    have hr := h.frame h' f1 f2
    refine (ih hr).bind fun x y hxy => ?_
    obtain ⟨r1, p''⟩ := x
    obtain ⟨r2, q''⟩ := y
    obtain ⟨rfl, h''⟩ := hxy
    refine ⟨?_, h''⟩
    have := hr.d
    dsimp only at this ⊢
    rw [this]

theorem p2pRows_rel (fs : α) (zc : List (Int × α)) (L : List (Int × α)) {p q : PropSt α} (h : RowRel p q) :
    ExRel (fun x y => x.1 = y.1 ∧ RowRel x.2 y.2) (p2pRows fs zc L p) (p2pRows fs zc L q) := by
  induction L generalizing p q with
  | nil => exact ⟨rfl, h⟩
  | cons c L ih =>
    obtain ⟨qr, zr⟩ := c
    unfold p2pRows
    refine (p2pInner_rel fs qr zr zc h).bind fun x y hxy => ?_
    obtain ⟨r1, p'⟩ := x
    obtain ⟨r1', q'⟩ := y
    obtain ⟨rfl, h'⟩ := hxy
    refine (ih h').bind fun x y hxy => ?_
    obtain ⟨r1, p''⟩ := x
    obtain ⟨r2, q''⟩ := y
    obtain ⟨rfl, h''⟩ := hxy
    exact ⟨rfl, h''⟩

/-- A row computed from the answers on `p`. -/
def RowAns (p : PropSt α) (fs zr : α) (qr : Int) (c : Int × α) (row : P2PRow α) : Prop :=
  row.distance_km = p.d ∧ row.reliability = qr ∧ row.confidence = c.1 ∧ ∃ a, freshAns zr 0.0 c.2 p = .ok a ∧ row.loss = fs + a

theorem RowAns.congr {p q : PropSt α} (hd : q.d = p.d) (hk : ansKey q = ansKey p) {fs zr : α} {qr : Int} {c : Int × α} {row : P2PRow α}
    (h : RowAns q fs zr qr c row) : RowAns p fs zr qr c row := by
  obtain ⟨h1, h2, h3, a, h4, h5⟩ := h
  exact ⟨h1.trans hd, h2, h3, a, (freshAns_congr hk _ _ _).symm.trans h4, h5⟩

/-- What stays of the dictionary through the report loops. -/
def Stays (p q : PropSt α) : Prop := CacheInv q ∧ ansKey q = ansKey p ∧ AvarFrame p q

theorem Stays.trans {p q r : PropSt α} (h1 : Stays p q) (h2 : Stays q r) : Stays p r :=
  ⟨h2.1, h2.2.1.trans h1.2.1, h1.2.2.trans h2.2.2⟩

theorem AvarFrame.d {p q : PropSt α} (h : AvarFrame p q) : q.d = p.d := by
  obtain ⟨_, _, _, _, _, _, _, _, rfl⟩ := h; rfl

theorem p2pInner_ok {fs zr : α} {qr : Int} {L : List (Int × α)} {p q : PropSt α} {rows : List (P2PRow α)} (hi : CacheInv p)
    (h : p2pInner fs qr zr L p = .ok (rows, q)) : Stays p q ∧ List.Forall₂ (RowAns p fs zr qr) L rows := by
  induction L generalizing p rows with
  | nil =>
    unfold p2pInner at h
    rw [pure_ok, ok_inj] at h
    obtain ⟨rfl, rfl⟩ := Prod.mk.inj h
    exact ⟨⟨hi, rfl, AvarFrame.refl p⟩, .nil⟩
  | cons c L ih =>
    obtain ⟨qc, zc⟩ := c
    unfold p2pInner at h
    obtain ⟨⟨a, p1⟩, h1, h⟩ := bind_eq_ok.1 h
    obtain ⟨⟨rest, p2⟩, h2, h⟩ := bind_eq_ok.1 h
    dsimp only at h
    rw [pure_ok, ok_inj] at h
    obtain ⟨rfl, rfl⟩ := Prod.mk.inj h
    obtain ⟨i1, k1, f1, _⟩ := avar_key hi h1
    obtain ⟨s2, r2⟩ := ih i1 h2
    refine ⟨Stays.trans ⟨i1, k1, f1⟩ s2, .cons ⟨f1.d, rfl, rfl, a, avar_ans hi h1, rfl⟩ ?_⟩
    exact r2.imp fun _ _ => RowAns.congr f1.d k1

theorem p2pRows_ok {fs : α} {zc L : List (Int × α)} {p q : PropSt α} {rows : List (P2PRow α)} (hi : CacheInv p)
    (h : p2pRows fs zc L p = .ok (rows, q)) : Stays p q ∧
      List.Forall₂ (fun x row => RowAns p fs x.1.2 x.1.1 x.2 row) (L.flatMap fun r => zc.map fun c => (r, c)) rows := by
  induction L generalizing p rows with
  | nil =>
    unfold p2pRows at h
    rw [pure_ok, ok_inj] at h
    obtain ⟨rfl, rfl⟩ := Prod.mk.inj h
    exact ⟨⟨hi, rfl, AvarFrame.refl p⟩, .nil⟩
  | cons c L ih =>
    obtain ⟨qr, zr⟩ := c
    unfold p2pRows at h
    obtain ⟨⟨r1, p1⟩, h1, h⟩ := bind_eq_ok.1 h
    obtain ⟨⟨r2, p2⟩, h2, h⟩ := bind_eq_ok.1 h
    dsimp only at h
    rw [pure_ok, ok_inj] at h
    obtain ⟨rfl, rfl⟩ := Prod.mk.inj h
    obtain ⟨s1, f1⟩ := p2pInner_ok hi h1
    obtain ⟨s2, f2⟩ := ih s1.1 h2
    refine ⟨s1.trans s2, ?_⟩
    rw [List.flatMap_cons]
    refine List.rel_append ?_ ?_
    · rw [List.forall₂_map_left_iff]; exact f1
    · exact f2.imp fun _ _ => RowAns.congr s1.2.2.d s1.2.1

/-! ### area -/

theorem areaInner_rel (d fs zt zl : α) (L : List (Int × α)) {p q : PropSt α} (h : AnsRel p q) :
    ExRel (fun x y => x.1 = y.1 ∧ AnsRel x.2 y.2 ∧ AvarFrame p x.2 ∧ AvarFrame q y.2)
      (areaInner d fs zt zl L p) (areaInner d fs zt zl L q) := by
  induction L generalizing p q with
  | nil => exact ⟨rfl, h, AvarFrame.refl p, AvarFrame.refl q⟩
  | cons c L ih =>
    obtain ⟨qc, zc⟩ := c
    unfold areaInner
    refine (avar_rel h zt zl zc).bind fun x y hxy => ?_
    obtain ⟨a, p'⟩ := x
    obtain ⟨b, q'⟩ := y
    obtain ⟨rfl, h', f1, f2, _, _⟩ := hxy
    refine (ih h').bind fun x y hxy => ?_
    obtain ⟨r1, p''⟩ := x
    obtain ⟨r2, q''⟩ := y
    obtain ⟨rfl, h'', g1, g2⟩ := hxy
    exact ⟨rfl, h'', f1.trans g1, f2.trans g2⟩

theorem areaInner_ok {d fs zt zl : α} {L : List (Int × α)} {p q : PropSt α} {rows : List (AreaRow α)} (hi : CacheInv p)
    (h : areaInner d fs zt zl L p = .ok (rows, q)) : Stays p q ∧
      List.Forall₂ (fun c row => row.distance_km = d ∧ row.confidence = c.1 ∧
        ∃ a, freshAns zt zl c.2 p = .ok a ∧ row.loss = fs + a) L rows := by
  induction L generalizing p rows with
  | nil =>
    unfold areaInner at h
    rw [pure_ok, ok_inj] at h
    obtain ⟨rfl, rfl⟩ := Prod.mk.inj h
    exact ⟨⟨hi, rfl, AvarFrame.refl p⟩, .nil⟩
  | cons c L ih =>
    obtain ⟨qc, zc⟩ := c
    unfold areaInner at h
    obtain ⟨⟨a, p1⟩, h1, h⟩ := bind_eq_ok.1 h
    obtain ⟨⟨rest, p2⟩, h2, h⟩ := bind_eq_ok.1 h
    dsimp only at h
    rw [pure_ok, ok_inj] at h
    obtain ⟨rfl, rfl⟩ := Prod.mk.inj h
    obtain ⟨i1, k1, f1, _⟩ := avar_key hi h1
    obtain ⟨s2, r2⟩ := ih i1 h2
    refine ⟨Stays.trans ⟨i1, k1, f1⟩ s2, .cons ⟨rfl, rfl, a, avar_ans hi h1, rfl⟩ ?_⟩
    refine r2.imp fun _ _ h => ?_
    obtain ⟨h1, h2, a, h3, h4⟩ := h
    exact ⟨h1, h2, a, (freshAns_congr k1 _ _ _).symm.trans h3, h4⟩

/-- The pairing of levels and deviates built by `zip`. -/
theorem zip_deviates {q : List Int} {z : List α} (h : qerfi (q.map percent) = .ok z) :
    List.Forall₂ (fun x y => y.1 = x ∧ DeviateOf x y.2) q (q.zip z) := by
  have h2 := (Props.C04_qerfi_entries _ _).1 h
  clear h
  rw [List.forall₂_map_left_iff] at h2
  induction h2 with
  | nil => exact .nil
  | cons h _ ih => exact .cons ⟨rfl, h⟩ ih

end Itm
