import Verif.Lemmas.P2P

/-! The measurement-campaign runner `scripts/pimter.py`. -/

namespace Itm
open Spec Props
variable {α : Type} [PyNum α]

/-- The ground impedance of the runner. -/
def pimterGround : Py (Cx α) := do
  let zq ← groundZq (15.0 : α) 0.005 (2.488 * 1000.0 / 47.7)
  Cx.div (Cx.sqrt (Cx.sub zq ⟨1.0, 0.0⟩)) zq

theorem pimterSetup_eq (p : PropSt α) (terrain distance : List α) :
    pimterSetup p terrain distance = (do
      let d1 ← pyGet distance 1
      let d0 ← pyGet distance 0
      let dn ← pyGet distance (-1)
      let zgnd ← pimterGround
      pure { p with ipol := 1, eps := 15.0, sgm := 0.005, ens0 := 314.0, klim := some 5, gma := 157e-9, ens := 314.0,
                    gme := effCurvature 157e-9 314.0, d := dn / 1000.0, pfl := { np := distance.length - 1, xi := d1 - d0, z := terrain },
                    fmhz := 2.488 * 1000.0, wn := 2.488 * 1000.0 / 47.7, zgnd, hg := ⟨2.56, 0.0⟩ }) := by
  unfold pimterSetup pimterGround
  simp only [bind_assoc]
  rfl

/-- One turn of the loop over heights. -/
def pimterTurn (qr : Int) (zr zc h : α) (p : PropSt α) : Py (PimterRow α × PropSt α) := do
  let p ← qlrpfl { p with hg := ⟨p.hg.x0, h⟩, lvar := 5, kwx := 0, klimx := 0, mdvarx := 11 }
  let fs ← freeSpace p.wn p.dist
  let (a, p) ← avar zr 0.0 zc p
  pure ({ fmhz := p.fmhz, hg := h, reliability := qr, loss := fs + a }, p)

theorem pimterLoop_cons (qr : Int) (zr zc h : α) (hs : List α) (p : PropSt α) :
    pimterLoop qr zr zc (h :: hs) p = (do
      let (row, q) ← pimterTurn qr zr zc h p
      let rest ← pimterLoop qr zr zc hs q
      pure (row :: rest)) := by
  conv_lhs => unfold pimterLoop
  unfold pimterTurn
  simp only [bind_assoc, pure_bind]

/-- What the next turn may depend on. -/
structure PimterRel (p q : PropSt α) : Prop where
  fmhz : p.fmhz = q.fmhz
  pfl : p.pfl = q.pfl
  gme : p.gme = q.gme
  wn : p.wn = q.wn
  ens : p.ens = q.ens
  zgnd : p.zgnd = q.zgnd
  hg0 : p.hg.x0 = q.hg.x0
  klim : p.klim.map fixKlim = q.klim.map fixKlim

theorem PimterRel.refl (p : PropSt α) : PimterRel p p := ⟨rfl, rfl, rfl, rfl, rfl, rfl, rfl, rfl⟩

theorem PimterRel.trans {p q r : PropSt α} (h : PimterRel p q) (h' : PimterRel q r) : PimterRel p r :=
  ⟨h.fmhz.trans h'.fmhz, h.pfl.trans h'.pfl, h.gme.trans h'.gme, h.wn.trans h'.wn, h.ens.trans h'.ens, h.zgnd.trans h'.zgnd,
    h.hg0.trans h'.hg0, h.klim.trans h'.klim⟩

/-- The dictionary the quantile is computed from. -/
theorem pimter_prep {p q : PropSt α} {h : α}
    (hq : qlrpfl { p with hg := ⟨p.hg.x0, h⟩, lvar := 5, kwx := 0, klimx := 0, mdvarx := 11 } = .ok q) :
    CacheInv q ∧ q.mdvar = some 11 ∧ PimterRel p q := by
  unfold qlrpfl at hq
  rw [qlrpflPrep_eq] at hq
  obtain ⟨r, hr, hq⟩ := bind_eq_ok.1 hq
  obtain ⟨g, _, hr⟩ := bind_eq_ok.1 hr
  rw [pure_ok, ok_inj, prepMarks_eq] at hr
  have hf := lrprop_frame hq
  have hi : CacheInv q := by
    refine cacheInv_lrFrame ?_ ?_ hf
    · refine cacheInv_of_five ?_
      rw [← hr]; simp
    · rw [← hr]; simp
  obtain ⟨_, _, _, _, _, _, _, rfl⟩ := hf
  subst hr
  exact ⟨hi, rfl, rfl, rfl, rfl, rfl, rfl, rfl, rfl, rfl⟩

theorem pimterTurn_frame {qr : Int} {zr zc h : α} {p q : PropSt α} {row : PimterRow α} (ht : pimterTurn qr zr zc h p = .ok (row, q)) :
    PimterRel p q := by
  unfold pimterTurn at ht
  obtain ⟨s, hs, ht⟩ := bind_eq_ok.1 ht
  obtain ⟨fs, _, ht⟩ := bind_eq_ok.1 ht
  obtain ⟨⟨a, r⟩, ha, ht⟩ := bind_eq_ok.1 ht
  dsimp only at ht
  rw [pure_ok, ok_inj] at ht
  obtain ⟨-, rfl⟩ := Prod.mk.inj ht
  obtain ⟨hi, _, hp⟩ := pimter_prep hs
  obtain ⟨_, hk, hf, _⟩ := avar_key hi ha
  refine hp.trans ?_
  have hk : r.klim.map fixKlim = s.klim.map fixKlim := congrArg Prod.fst hk
  obtain ⟨_, _, _, _, _, _, _, _, rfl⟩ := hf
  exact ⟨rfl, rfl, rfl, rfl, rfl, rfl, rfl, hk.symm⟩

theorem pimterTurn_rel (ho : Ordered α) (qr : Int) (zr zc h : α) {p p' : PropSt α} (H : PimterRel p p') :
    ExRel (fun x y => x.1 = y.1) (pimterTurn qr zr zc h p) (pimterTurn qr zr zc h p') := by
  unfold pimterTurn qlrpfl
  rw [qlrpflPrep_eq, qlrpflPrep_eq]
  simp only [← H.pfl, ← H.hg0, ← H.gme, bind_assoc, pure_bind]
  refine ExRel.bind_same _ fun g _ => ?_
  rw [prepMarks_eq, prepMarks_eq]
  refine (lrprop_rel ho 0.0 (?_ : LrRel _ _) ?_).mono (S := fun x y => LrOut x y ∧ CacheInv x ∧ CacheInv y ∧
      x.klim.map fixKlim = y.klim.map fixKlim ∧ x.mdvar = y.mdvar ∧ x.fmhz = y.fmhz) ?_ |>.bind fun x y hxy => ?_
  · refine ⟨?_, rfl, fun _ => rfl, fun h => absurd h (by simp)⟩
    unfold inp
    simp only [H.wn, H.ens, H.gme, H.zgnd]
  · exact fun h => absurd h (by simp)
  · intro x y hx hy hxy
    have fx := lrprop_frame hx
    have fy := lrprop_frame hy
    refine ⟨hxy.1, cacheInv_lrFrame (cacheInv_of_five (by simp)) (by simp) fx,
      cacheInv_lrFrame (cacheInv_of_five (by simp)) (by simp) fy, ?_⟩
    obtain ⟨_, _, _, _, _, _, _, rfl⟩ := fx
    obtain ⟨_, _, _, _, _, _, _, rfl⟩ := fy
    exact ⟨H.klim, rfl, H.fmhz⟩
  · obtain ⟨h1, i1, i2, e3, e4, e5⟩ := hxy
    have hin := h1.inp
    unfold inp at hin
    injection hin with a1 a2 a3 a4 a5 a6 a7 a8 a9
    rw [← a5, ← h1.dist]
    refine ExRel.bind_same _ fun fs _ => ?_
    have hA : AnsRel x y := by
      refine ⟨i1, i2, ?_⟩
      unfold ansKey
      rw [e3, e4, a5, a2, h1.dist, a6, h1.aref]
    refine (avar_rel hA zr 0.0 zc).bind fun u v huv => ?_
    obtain ⟨u1, u2⟩ := u
    obtain ⟨v1, v2⟩ := v
    obtain ⟨rfl, _, f1, f2, _, _⟩ := huv
    obtain ⟨_, _, _, _, _, _, _, _, rfl⟩ := f1
    obtain ⟨_, _, _, _, _, _, _, _, rfl⟩ := f2
    dsimp only
    have : ({ fmhz := x.fmhz, hg := h, reliability := qr, loss := fs + u1 } : PimterRow α) = { fmhz := y.fmhz, hg := h, reliability := qr, loss := fs + u1 } := by
      rw [e5]
    exact this

/-- The rows of the loop do not depend on one another: each is the row of a turn on the dictionary before the loop. -/
theorem pimterLoop_ok (ho : Ordered α) {qr : Int} {zr zc : α} {hs : List α} {p0 p : PropSt α} {rows : List (PimterRow α)} (H : PimterRel p0 p)
    (h : pimterLoop qr zr zc hs p = .ok rows) :
    List.Forall₂ (fun h row => ∃ q, pimterTurn qr zr zc h p0 = .ok (row, q)) hs rows := by
  induction hs generalizing p rows with
  | nil =>
    unfold pimterLoop at h
    rw [pure_ok, ok_inj] at h
    subst h
    exact .nil
  | cons a hs ih =>
    rw [pimterLoop_cons] at h
    obtain ⟨⟨row, q⟩, h1, h⟩ := bind_eq_ok.1 h
    obtain ⟨rest, h2, h⟩ := bind_eq_ok.1 h
    rw [pure_ok, ok_inj] at h
    subst h
    refine .cons ?_ (ih (H.trans (pimterTurn_frame h1)) h2)
    have := pimterTurn_rel ho qr zr zc a H
    rw [h1] at this
    cases h3 : pimterTurn qr zr zc a p0 with
    | error e => rw [h3] at this; exact this.elim
    | ok x =>
      rw [h3] at this
      obtain ⟨x1, x2⟩ := x
      have this : x1 = row := this
      exact ⟨x2, by rw [this]⟩

theorem pimterLoop_total {qr : Int} {zr zc : α} {hs : List α} {p : PropSt α}
    (h : ∀ a ∈ hs, ∀ p', PimterRel p p' → ∃ row q, pimterTurn qr zr zc a p' = .ok (row, q)) : ∃ rows, pimterLoop qr zr zc hs p = .ok rows := by
  induction hs generalizing p with
  | nil => exact ⟨_, rfl⟩
  | cons a hs ih =>
    obtain ⟨row, q, ht⟩ := h a (by simp) p (.refl p)
    obtain ⟨rows, hr⟩ := ih (p := q) fun b hb p' hp' => h b (by simp [hb]) p' ((pimterTurn_frame ht).trans hp')
    refine ⟨row :: rows, ?_⟩
    rw [pimterLoop_cons, ht, ok_bind]
    dsimp only
    rw [hr, ok_bind, pure_ok]

end Itm
