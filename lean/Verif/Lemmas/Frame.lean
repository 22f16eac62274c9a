import Verif.Lemmas.LrCore

/-! What the API calls may change in the dictionary. -/

namespace Itm
variable {α : Type} [PyNum α]

/-- `q` is `p` except for the keys `lrprop` computes, `dist`, `mdp` and `kwx`. -/
def LrFrame (p q : PropSt α) : Prop :=
  ∃ hor diff line dist mdp kwx c,
    q = setCache { p with hor := hor, diff := diff, line := line, dist := dist, mdp := mdp, kwx := kwx } c

theorem LrFrame.refl (p : PropSt α) : LrFrame p p :=
  ⟨p.hor, p.diff, p.line, p.dist, p.mdp, p.kwx, cacheOf p, rfl⟩

theorem LrFrame.trans {p q r : PropSt α} (h1 : LrFrame p q) (h2 : LrFrame q r) : LrFrame p r := by
  obtain ⟨a, b, c, d, e, f, g, rfl⟩ := h1
  obtain ⟨a', b', c', d', e', f', g', rfl⟩ := h2
  exact ⟨a', b', c', d', e', f', g', rfl⟩

theorem lrSetDist_frame (d : α) (p : PropSt α) : LrFrame p (lrSetDist d p) := by
  unfold lrSetDist
  split_ifs
  · exact ⟨p.hor, p.diff, p.line, d, 0, p.kwx, cacheOf p, rfl⟩
  · exact LrFrame.refl p

theorem lrDistKwx_frame {p q : PropSt α} (h : lrDistKwx p = .ok q) : LrFrame p q := by
  unfold lrDistKwx at h
  by_cases h0 : 0.0 < p.dist
  · rw [if_pos h0] at h
    obtain ⟨l, _, h⟩ := bind_eq_ok.1 h
    simp only [pure_ok, ok_inj] at h
    exact ⟨p.hor, p.diff, p.line, p.dist, p.mdp, q.kwx, cacheOf p, by rw [← h]; rfl⟩
  · rw [if_neg h0] at h
    rw [pure_ok, ok_inj] at h; subst h; exact LrFrame.refl p

theorem lrLos_frame {p q : PropSt α} (h : lrLos p = .ok q) :
    LrFrame p q ∧ q.dist = p.dist ∧ q.kwx = p.kwx ∧ q.mdp = p.mdp ∧ q.hor = p.hor ∧ q.line = p.line ∧ q.diff = p.diff := by
  unfold lrLos at h
  obtain ⟨hz, _, h⟩ := bind_eq_ok.1 h
  split_ifs at h with h1 h2
  · obtain ⟨l, _, h⟩ := bind_eq_ok.1 h
    obtain ⟨k, _, h⟩ := bind_eq_ok.1 h
    dsimp only at h
    split_ifs at h with h3
    · obtain ⟨a, _, h⟩ := bind_eq_ok.1 h
      rw [pure_ok, ok_inj] at h; subst h
      exact ⟨⟨p.hor, p.diff, p.line, p.dist, p.mdp, p.kwx,
        { cacheOf p with los := some k, wlos := true, aref := some a }, rfl⟩, rfl, rfl, rfl, rfl, rfl, rfl⟩
    · rw [pure_ok, ok_inj] at h; subst h
      exact ⟨⟨p.hor, p.diff, p.line, p.dist, p.mdp, p.kwx, { cacheOf p with los := some k, wlos := true }, rfl⟩, rfl, rfl, rfl, rfl, rfl, rfl⟩
  · rw [pure_ok, ok_inj] at h; subst h; exact ⟨LrFrame.refl p, rfl, rfl, rfl, rfl, rfl, rfl⟩
  · rw [pure_ok, ok_inj] at h; subst h; exact ⟨LrFrame.refl p, rfl, rfl, rfl, rfl, rfl, rfl⟩

theorem lrScat_frame {p q : PropSt α} (h : lrScat p = .ok q) :
    LrFrame p q ∧ q.dist = p.dist ∧ q.kwx = p.kwx ∧ q.mdp = p.mdp ∧ q.hor = p.hor ∧ q.line = p.line ∧ q.diff = p.diff := by
  unfold lrScat at h
  obtain ⟨hz, hh, h⟩ := bind_eq_ok.1 h
  rw [need_eq_ok] at hh
  split_ifs at h with h1
  · obtain ⟨l, _, h⟩ := bind_eq_ok.1 h
    obtain ⟨p', hp', h⟩ := bind_eq_ok.1 h
    obtain ⟨k, _, h⟩ := bind_eq_ok.1 h
    rw [pure_ok, ok_inj] at h; subst h
    by_cases hw : p.wscat = false
    · rw [lrScatSetup_eq hh hw] at hp'
      obtain ⟨⟨a, s, c⟩, _, hp'⟩ := bind_eq_ok.1 hp'
      simp only [pure_ok, ok_inj] at hp'; subst hp'
      exact ⟨⟨p.hor, p.diff, p.line, p.dist, p.mdp, p.kwx,
        { cacheOf p with ascat1 := a, sprep := some s, scat := some c, wscat := true, aref := some (farAref l k p.dist) }, rfl⟩, rfl, rfl, rfl, rfl, rfl, rfl⟩
    · unfold lrScatSetup at hp'
      rw [if_neg hw, pure_ok, ok_inj] at hp'; subst hp'
      exact ⟨⟨p.hor, p.diff, p.line, p.dist, p.mdp, p.kwx,
        { cacheOf p with aref := some (farAref l k p.dist) }, rfl⟩, rfl, rfl, rfl, rfl, rfl, rfl⟩
  · rw [pure_ok, ok_inj] at h; subst h; exact ⟨LrFrame.refl p, rfl, rfl, rfl, rfl, rfl, rfl⟩

theorem lrClamp_frame {p q : PropSt α} (h : lrClamp p = .ok q) :
    LrFrame p q ∧ q.dist = p.dist ∧ q.kwx = p.kwx ∧ q.mdp = p.mdp ∧ q.hor = p.hor ∧ q.line = p.line ∧ q.diff = p.diff := by
  unfold lrClamp at h
  obtain ⟨a, _, h⟩ := bind_eq_ok.1 h
  rw [pure_ok, ok_inj] at h; subst h
  exact ⟨⟨p.hor, p.diff, p.line, p.dist, p.mdp, p.kwx, { cacheOf p with aref := some (pyMax a 0.0) }, rfl⟩, rfl, rfl, rfl, rfl, rfl, rfl⟩

theorem lrInit_frame {p q : PropSt α} (h : lrInit p = .ok q) : LrFrame p q := by
  rw [lrInit_eq] at h
  obtain ⟨s, _, h⟩ := bind_eq_ok.1 h
  rw [pure_ok, ok_inj] at h; subst h
  exact ⟨some s.h, some s.c, some s.l, p.dist, p.mdp, lrKwx p s.h,
    { cacheOf p with wlos := false, wscat := false, ascat1 := 0.0 }, rfl⟩

theorem lrRun_frame {d : α} {p q : PropSt α} (h : lrRun d p = .ok q) : LrFrame p q := by
  unfold lrRun at h
  obtain ⟨p1, h1, h⟩ := bind_eq_ok.1 h
  obtain ⟨p2, h2, h⟩ := bind_eq_ok.1 h
  obtain ⟨p3, h3, h⟩ := bind_eq_ok.1 h
  exact ((((lrSetDist_frame d p).trans (lrDistKwx_frame h1)).trans (lrLos_frame h2).1).trans (lrScat_frame h3).1).trans
    (lrClamp_frame h).1

/-- `lrprop` changes only its own keys, `dist`, `mdp` and `kwx`. -/
theorem lrprop_frame {d : α} {p q : PropSt α} (h : lrprop d p = .ok q) : LrFrame p q := by
  unfold lrprop at h
  dsimp only at h
  split_ifs at h with hm
  · obtain ⟨p1, h1, h⟩ := bind_eq_ok.1 h
    exact (lrInit_frame h1).trans (lrRun_frame h)
  · exact lrRun_frame h

/-- `qlrpflPrep` changes only path parameters and the markers. -/
theorem qlrpflPrep_frame {p q : PropSt α} (h : qlrpflPrep p = .ok q) :
    ∃ dist dh he dl the, q = prepMarks { p with dist := dist, dh := dh, he := he, dl := dl, the := the, mdp := -1 } := by
  unfold qlrpflPrep at h
  obtain ⟨⟨the, dl⟩, _, h⟩ := bind_eq_ok.1 h
  obtain ⟨dh, _, h⟩ := bind_eq_ok.1 h
  dsimp only at h
  split_ifs at h with h1
  · obtain ⟨p', hp', h⟩ := bind_eq_ok.1 h
    rw [pure_ok, ok_inj] at h; subst h
    unfold pflLos at hp'
    obtain ⟨⟨za, zb⟩, _, hp'⟩ := bind_eq_ok.1 hp'
    obtain ⟨z0, _, hp'⟩ := bind_eq_ok.1 hp'
    obtain ⟨z1, _, hp'⟩ := bind_eq_ok.1 hp'
    obtain ⟨d0, _, hp'⟩ := bind_eq_ok.1 hp'
    obtain ⟨d1, _, hp'⟩ := bind_eq_ok.1 hp'
    dsimp only at hp'
    split_ifs at hp' with h2
    · obtain ⟨q1, _, hp'⟩ := bind_eq_ok.1 hp'
      obtain ⟨d2, _, hp'⟩ := bind_eq_ok.1 hp'
      obtain ⟨d3, _, hp'⟩ := bind_eq_ok.1 hp'
      rw [pure_bind'] at hp'
      obtain ⟨t0, _, hp'⟩ := bind_eq_ok.1 hp'
      obtain ⟨t1, _, hp'⟩ := bind_eq_ok.1 hp'
      rw [pure_ok, ok_inj] at hp'; subst hp'
      exact ⟨_, _, _, _, _, rfl⟩
    · rw [pure_bind'] at hp'
      obtain ⟨t0, _, hp'⟩ := bind_eq_ok.1 hp'
      obtain ⟨t1, _, hp'⟩ := bind_eq_ok.1 hp'
      rw [pure_ok, ok_inj] at hp'; subst hp'
      exact ⟨_, _, _, _, _, rfl⟩
  · obtain ⟨p', hp', h⟩ := bind_eq_ok.1 h
    rw [pure_ok, ok_inj] at h; subst h
    unfold pflObs at hp'
    obtain ⟨⟨za, _⟩, _, hp'⟩ := bind_eq_ok.1 hp'
    obtain ⟨⟨_, zb⟩, _, hp'⟩ := bind_eq_ok.1 hp'
    obtain ⟨z0, _, hp'⟩ := bind_eq_ok.1 hp'
    obtain ⟨z1, _, hp'⟩ := bind_eq_ok.1 hp'
    rw [pure_ok, ok_inj] at hp'; subst hp'
    exact ⟨_, _, _, _, _, rfl⟩

/-- `qlra` changes only path parameters and the markers. -/
theorem qlra_frame {kst : Pair Int} {p q : PropSt α} (h : qlra kst p = .ok q) :
    ∃ he dl the, q = prepMarks { p with he := he, dl := dl, the := the, mdp := 1 } := by
  unfold qlra at h
  obtain ⟨⟨dl0, the0⟩, _, h⟩ := bind_eq_ok.1 h
  obtain ⟨⟨dl1, the1⟩, _, h⟩ := bind_eq_ok.1 h
  dsimp only at h
  rw [pure_ok, ok_inj] at h; subst h
  exact ⟨_, _, _, rfl⟩

/-- `prepMarks` in flat form. -/
theorem prepMarks_eq (p : PropSt α) :
    prepMarks p = { p with
      lvar := if 0 < p.klimx then 5 else if 0 ≤ p.mdvarx then max p.lvar 4 else max p.lvar 3
      mdvar := if 0 ≤ p.mdvarx then some p.mdvarx else p.mdvar
      klim := if 0 < p.klimx then some p.klimx else p.klim } := by
  have hm : max (max p.lvar 3) 4 = max p.lvar 4 := by omega
  unfold prepMarks
  by_cases a : 0 < p.klimx <;> by_cases b : 0 ≤ p.mdvarx <;> simp only [a, b, if_true, if_false, hm]

theorem prepMarks_lvar (p : PropSt α) : 3 ≤ (prepMarks p).lvar := by
  rw [prepMarks_eq]
  simp only
  split_ifs <;> omega

end Itm
