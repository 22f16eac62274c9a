import Verif.Lemmas.LrCore
import Verif.Spec.Sweep

/-! Invariant of an area sweep: what the cached keys hold after any number of calls. -/

namespace Itm
open Spec
variable {α : Type} [PyNum α]

/-- The lazily computed keys agree with the set-up. -/
structure CInv (i : LrIn α) (h : Horizon α) (l : DiffLine α) (c : LrCache α) : Prop where
  los : c.wlos = true → ∃ k, losC i h l = .ok k ∧ c.los = some k
  scat : c.wscat = true → ∃ x, scatC i h l 0.0 = .ok x ∧ c.scat = some x.2.2 ∧ c.sprep = some x.2.1 ∧ c.ascat1 = x.1
  a1 : c.wscat = false → c.ascat1 = 0.0

theorem losStage_inv {i : LrIn α} {h : Horizon α} {l : DiffLine α} {d : α} {c c' : LrCache α} (I : CInv i h l c)
    (hs : losStage i h l d c = .ok c') :
    CInv i h l c' ∧ (c.wlos = true → c'.wlos = true) ∧ c'.wscat = c.wscat ∧ (d < h.dlsa → c'.wlos = true) := by
  unfold losStage at hs
  by_cases h1 : d < h.dlsa
  · rw [if_pos h1] at hs
    by_cases h2 : c.wlos = false
    · rw [if_pos h2] at hs
      obtain ⟨k, hk, hs⟩ := bind_eq_ok.1 hs
      by_cases h3 : 0.0 < d
      · rw [if_pos h3] at hs
        obtain ⟨a, _, hs⟩ := bind_eq_ok.1 hs
        rw [pure_ok, ok_inj] at hs
        subst hs
        exact ⟨⟨fun _ => ⟨k, hk, rfl⟩, I.scat, I.a1⟩, fun _ => rfl, rfl, fun _ => rfl⟩
      · rw [if_neg h3, pure_ok, ok_inj] at hs
        subst hs
        exact ⟨⟨fun _ => ⟨k, hk, rfl⟩, I.scat, I.a1⟩, fun _ => rfl, rfl, fun _ => rfl⟩
    · rw [if_neg h2, pure_ok, ok_inj] at hs
      subst hs
      exact ⟨I, id, rfl, fun _ => by simpa using h2⟩
  · rw [if_neg h1, pure_ok, ok_inj] at hs
    subst hs
    exact ⟨I, id, rfl, fun h => absurd h h1⟩

theorem scatStage_inv {i : LrIn α} {h : Horizon α} {l : DiffLine α} {d : α} {c c' : LrCache α} (I : CInv i h l c)
    (hs : scatStage i h l d c = .ok c') :
    CInv i h l c' ∧ c'.wlos = c.wlos ∧ (c.wscat = true → c'.wscat = true) ∧
      (d ≤ 0.0 ∨ h.dlsa ≤ d → c'.wscat = true) := by
  unfold scatStage at hs
  by_cases h1 : d ≤ 0.0 ∨ h.dlsa ≤ d
  · rw [if_pos h1] at hs
    obtain ⟨c1, hc1, hs⟩ := bind_eq_ok.1 hs
    obtain ⟨k, hk, hs⟩ := bind_eq_ok.1 hs
    rw [pure_ok, ok_inj] at hs
    have : CInv i h l c1 ∧ c1.wlos = c.wlos ∧ c1.wscat = true := by
      unfold scatSetupStage at hc1
      by_cases h2 : c.wscat = false
      · rw [if_pos h2, I.a1 h2] at hc1
        obtain ⟨⟨x1, x2, x3⟩, hx, hc1⟩ := bind_eq_ok.1 hc1
        simp only [pure_ok, ok_inj] at hc1
        subst hc1
        exact ⟨⟨I.los, fun _ => ⟨_, hx, rfl, rfl, rfl⟩, fun h => by simp at h⟩, rfl, rfl⟩
      · rw [if_neg h2, pure_ok, ok_inj] at hc1
        subst hc1
        exact ⟨I, rfl, by simpa using h2⟩
    subst hs
    exact ⟨⟨this.1.los, this.1.scat, this.1.a1⟩, this.2.1, fun _ => this.2.2, fun _ => this.2.2⟩
  · rw [if_neg h1, pure_ok, ok_inj] at hs
    subst hs
    exact ⟨I, rfl, id, fun h => absurd h h1⟩

theorem runC_inv {i : LrIn α} {h : Horizon α} {l : DiffLine α} {d : α} {c c' : LrCache α} (I : CInv i h l c)
    (hs : runC i h l d c = .ok c') :
    CInv i h l c' ∧ (c.wlos = true → c'.wlos = true) ∧ (c.wscat = true → c'.wscat = true) ∧ (d < h.dlsa → c'.wlos = true) ∧
      (d ≤ 0.0 ∨ h.dlsa ≤ d → c'.wscat = true) := by
  unfold runC at hs
  obtain ⟨c1, h1, hs⟩ := bind_eq_ok.1 hs
  obtain ⟨c2, h2, hs⟩ := bind_eq_ok.1 hs
  unfold clampStage at hs
  obtain ⟨a, _, hs⟩ := bind_eq_ok.1 hs
  rw [pure_ok, ok_inj] at hs
  obtain ⟨I1, w1, s1, t1⟩ := losStage_inv I h1
  obtain ⟨I2, w2, s2, t2⟩ := scatStage_inv I1 h2
  subst hs
  exact ⟨⟨I2.los, I2.scat, I2.a1⟩, fun h => w2.trans (w1 h), fun h => s2 (s1.trans h), fun h => w2.trans (t1 h), t2⟩

/-- What a dictionary holds after a sweep begun with a fresh area preparation `p`. -/
structure SInv (p : PropSt α) (s : Setup α) (q : PropSt α) : Prop where
  mdp : q.mdp = 0
  inp : inp q = inp p
  hor : q.hor = some s.h
  diff : q.diff = some s.c
  line : q.line = some s.l
  cache : CInv (Itm.inp p) s.h s.l (cacheOf q)

theorem freshCInv (i : LrIn α) (h : Horizon α) (l : DiffLine α) (c : LrCache α) :
    CInv i h l { c with wlos := false, wscat := false, ascat1 := 0.0 } :=
  ⟨fun h => by simp at h, fun h => by simp at h, fun _ => rfl⟩

/-- The first call after a fresh area preparation. -/
theorem first_inv {p q : PropSt α} {d : α} (hm : 0 < p.mdp) (h : lrprop d p = .ok q) :
    ∃ s, setupC p.mdp (inp p) = .ok s ∧ SInv p s q ∧ (d < s.h.dlsa → q.wlos = true) ∧ (d ≤ 0.0 ∨ s.h.dlsa ≤ d → q.wscat = true) := by
  rw [lrprop_setup (by omega)] at h
  obtain ⟨s, hs, h⟩ := bind_eq_ok.1 h
  obtain ⟨c, hc, h⟩ := bind_eq_ok.1 h
  rw [pure_ok, ok_inj] at h
  have hd : distOf p d = d := by unfold distOf; rw [if_pos (by omega)]
  rw [hd] at hc h
  have hmm : mdpOf p = 0 := by unfold mdpOf; rw [if_pos (by omega)]
  obtain ⟨I, _, _, t1, t2⟩ := runC_inv (freshCInv _ _ _ _) hc
  refine ⟨s, hs, ?_, ?_, ?_⟩
  · constructor
    · rw [← h]; exact hmm
    · rw [← h]; rfl
    · rw [← h]; rfl
    · rw [← h]; rfl
    · rw [← h]; rfl
    · have e : cacheOf q = c := by rw [← h]; rfl
      rw [e]; exact I
  · intro hl; have := t1 hl; rw [← h]; exact this
  · intro hl; have := t2 hl; rw [← h]; exact this

/-- A continuing call. -/
theorem cont_inv {p q r : PropSt α} {s : Setup α} {d : α} (I : SInv p s q) (h : lrprop d q = .ok r) :
    SInv p s r ∧ (q.wlos = true → r.wlos = true) ∧ (q.wscat = true → r.wscat = true) ∧ (d < s.h.dlsa → r.wlos = true) ∧
      (d ≤ 0.0 ∨ s.h.dlsa ≤ d → r.wscat = true) := by
  rw [lrprop_cont I.mdp I.hor I.line, I.inp] at h
  obtain ⟨c, hc, h⟩ := bind_eq_ok.1 h
  rw [pure_ok, ok_inj] at h
  obtain ⟨J, w, sc, t1, t2⟩ := runC_inv I.cache hc
  have e : cacheOf r = c := by rw [← h]; rfl
  have e1 : r.wlos = c.wlos := by rw [← h]; rfl
  have e2 : r.wscat = c.wscat := by rw [← h]; rfl
  refine ⟨?_, ?_, ?_, ?_, ?_⟩
  · constructor
    · rw [← h]; rfl
    · have : inp r = inp q := by rw [← h]; rfl
      rw [this]; exact I.inp
    · have : r.hor = q.hor := by rw [← h]; rfl
      rw [this]; exact I.hor
    · have : r.diff = q.diff := by rw [← h]; rfl
      rw [this]; exact I.diff
    · have : r.line = q.line := by rw [← h]; rfl
      rw [this]; exact I.line
    · rw [e]; exact J
  · rw [e1]; exact w
  · rw [e2]; exact sc
  · rw [e1]; exact t1
  · rw [e2]; exact t2

/-- A whole sweep that continues an earlier one. -/
theorem sweep_cont {p q r : PropSt α} {s : Setup α} (I : SInv p s q) {ds : List α} (h : sweep ds q = .ok r) :
    SInv p s r ∧ (q.wlos = true → r.wlos = true) ∧ (q.wscat = true → r.wscat = true) ∧
      (∀ d ∈ ds, d < s.h.dlsa → r.wlos = true) ∧ (∀ d ∈ ds, d ≤ 0.0 ∨ s.h.dlsa ≤ d → r.wscat = true) := by
  induction ds generalizing q with
  | nil => rw [sweep, pure_ok, ok_inj] at h; subst h; exact ⟨I, id, id, by simp, by simp⟩
  | cons d ds ih =>
    rw [sweep] at h
    obtain ⟨q1, h1, h⟩ := bind_eq_ok.1 h
    obtain ⟨I1, w1, s1, t1, u1⟩ := cont_inv I h1
    obtain ⟨I2, w2, s2, t2, u2⟩ := ih I1 h
    refine ⟨I2, fun h => w2 (w1 h), fun h => s2 (s1 h), fun d' hd' hl => ?_, fun d' hd' hl => ?_⟩
    · rcases List.mem_cons.1 hd' with e | e
      · subst e; exact w2 (t1 hl)
      · exact t2 d' e hl
    · rcases List.mem_cons.1 hd' with e | e
      · subst e; exact s2 (u1 hl)
      · exact u2 d' e hl

/-- A whole sweep from a fresh preparation. -/
theorem sweep_inv {p q : PropSt α} {ds : List α} (hm : 0 < p.mdp) (hne : ds ≠ []) (h : sweep ds p = .ok q) :
    ∃ s, setupC p.mdp (inp p) = .ok s ∧ SInv p s q ∧ (∀ d ∈ ds, d < s.h.dlsa → q.wlos = true) ∧
      (∀ d ∈ ds, d ≤ 0.0 ∨ s.h.dlsa ≤ d → q.wscat = true) := by
  cases ds with
  | nil => exact absurd rfl hne
  | cons d ds =>
    rw [sweep] at h
    obtain ⟨q1, h1, h⟩ := bind_eq_ok.1 h
    obtain ⟨s, hs, I, t, u⟩ := first_inv hm h1
    obtain ⟨I2, w2, s2, t2, u2⟩ := sweep_cont I h
    refine ⟨s, hs, I2, fun d' hd' hl => ?_, fun d' hd' hl => ?_⟩
    · rcases List.mem_cons.1 hd' with e | e
      · subst e; exact w2 (t hl)
      · exact t2 d' e hl
    · rcases List.mem_cons.1 hd' with e | e
      · subst e; exact s2 (u hl)
      · exact u2 d' e hl

/-- The line-of-sight coefficients are not computed by distances beyond the horizon. -/
theorem sweep_wlos {p q : PropSt α} {s : Setup α} (I : SInv p s q) {ds : List α} {r : PropSt α} (h : sweep ds q = .ok r)
    (hw : q.wlos = false) (hds : ∀ d ∈ ds, ¬ d < s.h.dlsa) : r.wlos = false := by
  induction ds generalizing q with
  | nil => rw [sweep, pure_ok, ok_inj] at h; subst h; exact hw
  | cons d ds ih =>
    rw [sweep] at h
    obtain ⟨q1, h1, h⟩ := bind_eq_ok.1 h
    refine ih (cont_inv I h1).1 h ?_ (fun d' hd' => hds d' (List.mem_cons_of_mem _ hd'))
    rw [lrprop_cont I.mdp I.hor I.line] at h1
    obtain ⟨c, hc, h1⟩ := bind_eq_ok.1 h1
    rw [pure_ok, ok_inj] at h1
    have e : q1.wlos = c.wlos := by rw [← h1]; rfl
    rw [e]
    exact runC_wlos hc hw (hds d (List.mem_cons_self ..))
where
  runC_wlos {i : LrIn α} {h : Horizon α} {l : DiffLine α} {d : α} {c c' : LrCache α} (hs : runC i h l d c = .ok c')
      (hw : c.wlos = false) (hd : ¬ d < h.dlsa) : c'.wlos = false := by
    unfold runC at hs
    obtain ⟨c1, h1, hs⟩ := bind_eq_ok.1 hs
    obtain ⟨c2, h2, hs⟩ := bind_eq_ok.1 hs
    unfold clampStage at hs
    obtain ⟨a, _, hs⟩ := bind_eq_ok.1 hs
    rw [pure_ok, ok_inj] at hs
    unfold losStage at h1
    rw [if_neg hd, pure_ok, ok_inj] at h1
    rw [← h1] at h2
    rw [← hs]
    simp only
    unfold scatStage at h2
    split_ifs at h2
    · obtain ⟨c3, h3, h2⟩ := bind_eq_ok.1 h2
      obtain ⟨k, _, h2⟩ := bind_eq_ok.1 h2
      rw [pure_ok, ok_inj] at h2
      subst h2
      unfold scatSetupStage at h3
      split_ifs at h3
      · obtain ⟨⟨x1, x2, x3⟩, _, h3⟩ := bind_eq_ok.1 h3
        simp only [pure_ok, ok_inj] at h3
        subst h3; exact hw
      · rw [pure_ok, ok_inj] at h3; subst h3; exact hw
    · rw [pure_ok, ok_inj] at h2; subst h2; exact hw

/-- Same for the first call. -/
theorem first_wlos {p q : PropSt α} {s : Setup α} {d : α} (hm : 0 < p.mdp) (h : lrprop d p = .ok q)
    (hs : setupC p.mdp (inp p) = .ok s) (hd : ¬ d < s.h.dlsa) : q.wlos = false := by
  rw [lrprop_setup (by omega), hs, ok_bind] at h
  obtain ⟨c, hc, h⟩ := bind_eq_ok.1 h
  rw [pure_ok, ok_inj] at h
  have e : q.wlos = c.wlos := by rw [← h]; rfl
  have hdd : distOf p d = d := by unfold distOf; rw [if_pos (by omega)]
  rw [hdd] at hc
  rw [e]
  exact sweep_wlos.runC_wlos hc rfl hd

end Itm
