import Verif.Lemmas.P2P
import Verif.Lemmas.Area
import Verif.Lemmas.SmoothTotal
import Verif.Lemmas.AvarGood
import Verif.Lemmas.PflReal
import Verif.Props.C39
import Verif.Props.C38
import Verif.Props.C41

/-! Runs that do not raise. -/

namespace Itm
open Spec Props
variable {α : Type} [PyNum α]

theorem p2pInner_total {fs zr : α} {qr : Int} (L : List (Int × α)) {p : PropSt α} (hi : CacheInv p)
    (h : ∀ zt zc : α, ∃ a, freshAns zt 0.0 zc p = .ok a) : ∃ rows q, p2pInner fs qr zr L p = .ok (rows, q) := by
  induction L generalizing p with
  | nil => exact ⟨_, _, rfl⟩
  | cons c L ih =>
    obtain ⟨qc, zc⟩ := c
    obtain ⟨a, ha⟩ := h zr zc
    obtain ⟨q, hq⟩ := ans_avar hi ha
    obtain ⟨i1, k1, f1, _⟩ := avar_key hi hq
    obtain ⟨rows, r, hr⟩ := ih i1 (fun zt zc => by rw [freshAns_congr k1]; exact h zt zc)
    unfold p2pInner
    rw [hq, ok_bind]
    dsimp only
    rw [hr, ok_bind]
    exact ⟨_, _, rfl⟩

theorem p2pRows_total {fs : α} (zc : List (Int × α)) (L : List (Int × α)) {p : PropSt α} (hi : CacheInv p)
    (h : ∀ zt zc : α, ∃ a, freshAns zt 0.0 zc p = .ok a) : ∃ rows q, p2pRows fs zc L p = .ok (rows, q) := by
  induction L generalizing p with
  | nil => exact ⟨_, _, rfl⟩
  | cons c L ih =>
    obtain ⟨qr, zr⟩ := c
    obtain ⟨r1, q1, h1⟩ := p2pInner_total (fs := fs) (qr := qr) (zr := zr) zc hi h
    obtain ⟨⟨i1, k1, f1⟩, _⟩ := p2pInner_ok hi h1
    obtain ⟨rows, r, hr⟩ := ih i1 (fun zt zc => by rw [freshAns_congr k1]; exact h zt zc)
    unfold p2pRows
    rw [h1, ok_bind]
    dsimp only
    rw [hr, ok_bind]
    exact ⟨_, _, rfl⟩

theorem areaInner_total {d fs zt zl : α} (L : List (Int × α)) {p : PropSt α} (hi : CacheInv p)
    (h : ∀ zt zl zc : α, ∃ a, freshAns zt zl zc p = .ok a) : ∃ rows q, areaInner d fs zt zl L p = .ok (rows, q) := by
  induction L generalizing p with
  | nil => exact ⟨_, _, rfl⟩
  | cons c L ih =>
    obtain ⟨qc, zc⟩ := c
    obtain ⟨a, ha⟩ := h zt zl zc
    obtain ⟨q, hq⟩ := ans_avar hi ha
    obtain ⟨i1, k1, f1, _⟩ := avar_key hi hq
    obtain ⟨rows, r, hr⟩ := ih i1 (fun zt zl zc => by rw [freshAns_congr k1]; exact h zt zl zc)
    unfold areaInner
    rw [hq, ok_bind]
    dsimp only
    rw [hr, ok_bind]
    exact ⟨_, _, rfl⟩

/-- Answers exist on a prepared dictionary. -/
theorem freshAns_total {p : PropSt ℝ} (hi : CacheInv p) {k md : ℤ} {ar : ℝ} (hk : p.klim = some k) (hmd : p.mdvar = some md)
    (har : p.aref = some ar) (hw : 0 < p.wn) (h0 : 0 ≤ p.he.x0) (h1 : 0 ≤ p.he.x1) (hd : 0 ≤ p.dist) (hh : 0 ≤ p.dh)
    (zt zl zc : ℝ) : ∃ a, freshAns zt zl zc p = .ok a := by
  obtain ⟨a, q, h⟩ := avar_total hi hk hmd har hw h0 h1 hd hh zt zl zc
  exact ⟨a, avar_ans hi h⟩

theorem freeSpace_total {wn dist : ℝ} (hw : 0 < wn) (hd : 0 < dist) : ∃ fs, freeSpace wn dist = .ok fs := by
  unfold freeSpace
  rw [npLog_ok (by norm_num; positivity), ok_bind]
  exact ⟨_, rfl⟩

/-- A set-up call of `lrprop` on a smooth-earth link beyond the horizon. -/
theorem lrprop_smooth {p : PropSt ℝ} (h : SmoothEarth (inp p)) (hm : p.mdp ≠ 0) {d : ℝ} (hd : p.dl.x0 + p.dl.x1 ≤ distOf p d) :
    ∃ q s x, lrprop d p = .ok q ∧ setupC p.mdp (inp p) = .ok s ∧ s.h = horR (inp p) ∧ scatC (inp p) s.h s.l 0.0 = .ok x ∧
      q.hor = some (horR (inp p)) ∧ q.line = some s.l ∧ q.scat = some x.2.2 ∧
      q.aref = some (max (farAref s.l x.2.2 (distOf p d)) 0) ∧ q.dist = distOf p d ∧ inp q = inp p ∧ x.2.2.ems ≤ s.l.emd := by
  obtain ⟨s, x, hs, hh, hx, _, he⟩ := h.setup p.mdp
  have hsa : s.h.dlsa ≤ distOf p d := by rw [hh, h.hor]; exact hd
  have hr := runC_far (freshCInv (inp p) s.h s.l (cacheOf p)) hsa
  rw [hx] at hr
  obtain ⟨c, hc, ha⟩ := map_ok.1 hr
  obtain ⟨I, _, _, _, t2⟩ := runC_inv (freshCInv _ _ _ _) hc
  obtain ⟨x', hx', hsc, _, _⟩ := I.scat (t2 (.inr hsa))
  rw [hx, ok_inj] at hx'
  subst hx'
  have e : lrprop d p = .ok (setCache { withSetup p s with dist := distOf p d, mdp := mdpOf p, kwx := distKwxC s.l (distOf p d) (lrKwx p s.h) } c) := by
    rw [lrprop_setup hm, hs, ok_bind, hc, ok_bind, pure_ok]
  exact ⟨_, s, x, e, hs, hh, hx, congrArg some hh, rfl, hsc, ha, rfl, rfl, he⟩

/-- A continuing call. -/
theorem lrprop_smooth_cont {p q : PropSt ℝ} {s : Setup ℝ} (I : SInv p s q) {x : ℝ × ScatPrep ℝ × ScatC ℝ}
    (hx : scatC (inp p) s.h s.l 0.0 = .ok x) {d : ℝ} (hd : s.h.dlsa ≤ d) :
    ∃ r, lrprop d q = .ok r ∧ SInv p s r ∧ r.aref = some (max (farAref s.l x.2.2 d) 0) ∧ r.dist = d := by
  have hr := runC_far I.cache hd
  rw [hx] at hr
  obtain ⟨c, hc, ha⟩ := map_ok.1 hr
  have e : lrprop d q = .ok (setCache { q with dist := d, mdp := 0, kwx := distKwxC s.l d q.kwx } c) := by
    rw [lrprop_cont I.mdp I.hor I.line, I.inp, hc, ok_bind, pure_ok]
  exact ⟨_, e, (cont_inv I e).1, ha, rfl⟩

end Itm
