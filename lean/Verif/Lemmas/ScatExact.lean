import Verif.Spec.Program
import Verif.Props.C57

/-! Beyond the horizon `lrprop` on every link, usable for scatter or not. -/

namespace Itm
open Spec Props

theorem scat_values' {p : PropSt ℝ} {h : Horizon ℝ} (e3 : h.tha = (linkOf p).tha) {s0 s1 s2 : ScatPrep ℝ} {a6 a5 : ℝ}
    (hs0 : scatPrep (blank 0 (inp p)) = .ok s0) (hx6 : ascatC (inp p) h s0 0.0 (linkOf p).d6 = .ok (a6, s1))
    (hx5 : ascatC (inp p) h s1 a6 (linkOf p).d5 = .ok (a5, s2)) : a6 = (linkOf p).a6 ∧ a5 = (linkOf p).a5' := by
  by_cases h6 : (linkOf p).ScatterOk (linkOf p).d6
  · obtain ⟨e, e'⟩ := scat_values e3 hs0 hx6 hx5 h6 rfl
    refine ⟨e, e'.trans ?_⟩
    unfold Link.a5' Link.gain5' Link.a5
    rw [if_pos h6]
  obtain ⟨p1, p2, p3, p4⟩ := scatPrep_spec hs0
  have n15 : ¬ (15.0 : ℝ) < s0.h0s := by rw [p4]; norm_num
  have n0 : ∀ g : ℝ, ¬ (15 < g ∧ 0 ≤ s0.h0s) := by intro g; rw [p4]; norm_num
  -- the farther distance: the gain is not remembered
  have f6 : a6 = (linkOf p).a6 ∧ s1 = s0 := by
    unfold ascatC at hx6
    rw [if_neg n15] at hx6
    obtain ⟨h0, hh0, hx6⟩ := bind_eq_ok.1 hx6
    obtain ⟨a, ha, hx6⟩ := bind_eq_ok.1 hx6
    have e0 := ascatH0_spec p1 p2 p3 hh0
    rw [if_neg (n0 _)] at e0
    rw [pure_ok, ok_inj, ascatR_spec] at hx6
    dsimp only at hx6
    have hno : (linkOf p).scatterR p.he.x0 (linkOf p).d6 < 0.2 ∧ (linkOf p).scatterR p.he.x1 (linkOf p).d6 < 0.2 := by
      unfold Link.ScatterOk at h6
      push Not at h6
      exact h6
    simp only [if_pos hno] at hx6
    rw [if_neg (by rw [pyEq_real]; simp), Prod.mk.injEq] at hx6
    refine ⟨?_, hx6.2.symm⟩
    rw [← hx6.1, ascatFinal_spec e3 ha, e0]; rfl
  refine ⟨f6.1, ?_⟩
  unfold ascatC at hx5
  rw [f6.2, if_neg n15] at hx5
  obtain ⟨h0, hh0, hx5⟩ := bind_eq_ok.1 hx5
  obtain ⟨a, ha, hx5⟩ := bind_eq_ok.1 hx5
  rw [pure_ok, ok_inj, Prod.mk.injEq] at hx5
  have e0 := ascatH0_spec p1 p2 p3 hh0
  rw [if_neg (n0 _)] at e0
  rw [← hx5.1, ascatFinal_spec e3 ha, e0]
  unfold Link.a5' Link.gain5'
  rw [if_neg h6]

/-- The scatter line. -/
theorem scat_exact {p : PropSt ℝ} {s : Setup ℝ} (hs : setupC p.mdp (inp p) = .ok s) {x : ℝ × ScatPrep ℝ × ScatC ℝ}
    (hx : scatC (inp p) s.h s.l 0.0 = .ok x) (d : ℝ) : farAref s.l x.2.2 d = (linkOf p).unbarred d := by
  obtain ⟨_, ⟨e1, e2, e3⟩, exae, hemd, _, hline, _⟩ := line_spec hs
  unfold scatC at hx
  obtain ⟨s0, hs0, hx⟩ := bind_eq_ok.1 hx
  have ed5 : s.h.dla + 200e3 = (linkOf p).d5 := by rw [e2]; unfold Link.d5; norm_num
  have ed6 : (linkOf p).d5 + 200e3 = (linkOf p).d6 := by unfold Link.d5 Link.d6; norm_num; ring
  dsimp only at hx
  rw [ed5, ed6] at hx
  obtain ⟨⟨a6, s1⟩, hx6, hx⟩ := bind_eq_ok.1 hx
  dsimp only at hx
  obtain ⟨⟨a5, s2⟩, hx5, hx⟩ := bind_eq_ok.1 hx
  dsimp only at hx
  obtain ⟨c, hc, hx⟩ := bind_eq_ok.1 hx
  rw [pure_ok, ok_inj] at hx
  subst hx
  dsimp only
  obtain ⟨f6, f5⟩ := scat_values' e3 hs0 hx6 hx5
  rw [f6, f5] at hc
  clear hx6 hx5 f6 f5
  have haed : s.l.aed = (linkOf p).diffLine 0 := by rw [← hline]; ring
  unfold scatCoef at hc
  unfold farAref Link.unbarred
  by_cases c1 : (linkOf p).a5' < 1000
  · rw [if_pos (by norm_num; exact c1)] at hc
    obtain ⟨lg, hlg, hc⟩ := bind_eq_ok.1 hc
    obtain ⟨y, hy, hc⟩ := bind_eq_ok.1 hc
    rw [pure_ok, ok_inj] at hc
    have ems : ((linkOf p).a6 - (linkOf p).a5') / 200e3 = (linkOf p).ms' := by
      unfold Link.ms'
      rw [show (linkOf p).d6 - (linkOf p).d5 = 200e3 by rw [← ed6]; ring]
    rw [ems] at hc hy
    have edx : c.dx = (linkOf p).dx' := by
      rw [← hc]
      simp only [pyMax_real]
      unfold Link.dx'
      rw [e1, e2, exae, (npLog_eq_ok.1 hlg).2, (pyDiv_eq_ok.1 hy).2, hemd, haed]
      congr 2
      ring
    have eaes : c.aes = (s.l.emd - (linkOf p).ms') * c.dx + s.l.aed := by rw [← hc]
    have eems : c.ems = (linkOf p).ms' := by rw [← hc]
    rw [eaes, eems, edx]
    by_cases c2 : (linkOf p).dx' < d
    · rw [if_pos c2, if_pos ⟨c1, c2⟩, ← hline]; ring
    · rw [if_neg c2, if_neg (fun c : _ ∧ _ => c2 c.2), ← hline]
  · rw [if_neg (by norm_num; exact not_lt.1 c1), pure_ok, ok_inj] at hc
    rw [if_neg (fun c : _ ∧ _ => c1 c.1), ← hline, ← hc]
    simp only [ite_self]

/-- A first call, on every link and at every distance. -/
theorem lrprop_exact {p q : PropSt ℝ} {d : ℝ} (hm : p.mdp ≠ 0) (h : lrprop d p = .ok q) :
    q.aref = some ((linkOf p).unbarredReference q.dist) := by
  by_cases hb : 0 < q.dist ∧ q.dist < (linkOf p).dlsa
  · rw [C57_line_of_sight hm h hb.1 hb.2, Link.unbarredReference_eq (.inl hb)]
  have hb' : q.dist ≤ 0 ∨ (linkOf p).dlsa ≤ q.dist := by
    by_contra c
    push Not at c
    exact hb c
  obtain ⟨hd, s, c, hs, hc, ha⟩ := setup_call hm h
  rw [← hd] at hc
  obtain ⟨_, ⟨e1, _⟩, _⟩ := line_spec hs
  have hv : ∃ x, scatC (inp p) s.h s.l 0.0 = .ok x ∧ c.aref = some (max (farAref s.l x.2.2 q.dist) 0) := by
    by_cases c1 : s.h.dlsa ≤ q.dist
    · have e := runC_far (i := inp p) (h := s.h) (l := s.l) (D := q.dist)
        (c := { cacheOf p with wlos := false, wscat := false, ascat1 := 0.0 }) (freshCInv _ _ _ _) c1
      rw [hc] at e
      obtain ⟨x, hx, hv⟩ := map_ok.1 e.symm
      exact ⟨x, hx, hv.symm⟩
    · have e := runC_nonpos (i := inp p) (h := s.h) (l := s.l) (D := q.dist)
        (c := { cacheOf p with wlos := false, wscat := false, ascat1 := 0.0 }) (freshCInv _ _ _ _) (not_le.1 c1)
        (hb'.resolve_right (by rw [← e1]; exact c1))
      rw [hc] at e
      obtain ⟨_, _, e⟩ := bind_eq_ok.1 e.symm
      obtain ⟨x, hx, hv⟩ := map_ok.1 e
      exact ⟨x, hx, hv.symm⟩
  obtain ⟨x, hx, hv⟩ := hv
  rw [ha, hv, scat_exact hs hx, max_comm]
  unfold Link.unbarredReference
  rw [if_neg hb]

/-- Any later call of a sweep beyond the horizon. -/
theorem cont_exact {b q r : PropSt ℝ} {s : Setup ℝ} {D : ℝ} (hm : 0 < b.mdp) (hs : setupC b.mdp (inp b) = .ok s) (I : SInv b s q)
    (h : lrprop D q = .ok r) (hD : (linkOf b).dlsa ≤ D) : r.aref = some ((linkOf b).unbarredReference D) := by
  obtain ⟨_, ⟨e1, _⟩, _⟩ := line_spec hs
  have hD' : s.h.dlsa ≤ D := by rw [e1]; exact hD
  have e := arefOf_cont I D
  rw [runC_far I.cache hD', ← runC_far (freshCInv _ _ _ (cacheOf b)) hD', ← arefOf_setup hm hs] at e
  rw [show arefOf (lrprop D q) = .ok r.aref by rw [h]; rfl] at e
  obtain ⟨q', h', ha⟩ := map_ok.1 e.symm
  have hd : q'.dist = D := by
    rw [(setup_call (by omega) h').1]; unfold distOf; rw [if_pos (by omega)]
  rw [← ha, ← hd]
  exact lrprop_exact (by omega) h'

theorem first_exact {b q : PropSt ℝ} {D : ℝ} (hm : 0 < b.mdp) (h : lrprop D b = .ok q) :
    q.aref = some ((linkOf b).unbarredReference D) := by
  have hd : q.dist = D := by
    rw [(setup_call (by omega) h).1]; unfold distOf; rw [if_pos (by omega)]
  rw [← hd]
  exact lrprop_exact (by omega) h

end Itm
