import Verif.Props.C16
import Verif.Lemmas.Fresh

/-! C17: what the warning marker says after a set-up call; concrete cases for C18 and C21. -/

namespace Itm
open Spec

theorem horC_dls {i : LrIn ℝ} {h : Horizon ℝ} (hh : horC i = .ok h) :
    h.dls.x0 = smoothHorizon i.he.x0 i.gme ∧ h.dls.x1 = smoothHorizon i.he.x1 i.gme := by
  unfold horC lrHorizon at hh
  obtain ⟨a, ha, hh⟩ := bind_eq_ok.1 hh
  obtain ⟨b, hb, hh⟩ := bind_eq_ok.1 hh
  obtain ⟨c, hc, hh⟩ := bind_eq_ok.1 hh
  obtain ⟨d, hd, hh⟩ := bind_eq_ok.1 hh
  rw [pure_ok, ok_inj] at hh
  have e2 : (2.0 : ℝ) = 2 := by norm_num
  rw [← hh]
  unfold smoothHorizon
  simp only
  rw [(mathSqrt_eq_ok.1 hb).2, (mathSqrt_eq_ok.1 hd).2, (pyDiv_eq_ok.1 ha).2, (pyDiv_eq_ok.1 hc).2]
  exact ⟨by rw [e2]; rfl, by rw [e2]; rfl⟩

theorem lineC_dmin {mdp : Int} {i : LrIn ℝ} {h : Horizon ℝ} {c : DiffC ℝ} {l : DiffLine ℝ} (hl : lineC mdp i h c = .ok l) :
    l.dmin = |i.he.x0 - i.he.x1| / 0.2 := by
  unfold lineC lrLineWith at hl
  dsimp only at hl
  obtain ⟨_, _, hl⟩ := bind_eq_ok.1 hl
  obtain ⟨_, _, hl⟩ := bind_eq_ok.1 hl
  obtain ⟨_, _, hl⟩ := bind_eq_ok.1 hl
  obtain ⟨_, _, hl⟩ := bind_eq_ok.1 hl
  obtain ⟨_, _, hl⟩ := bind_eq_ok.1 hl
  rw [pure_ok, ok_inj] at hl
  rw [← hl]; rfl

/-- The marker and the distance after a set-up call. -/
theorem setup_kwx {p q : PropSt ℝ} {d : ℝ} (hm : p.mdp ≠ 0) (h : lrprop d p = .ok q) :
    ∃ s, setupC p.mdp (inp p) = .ok s ∧ q.dist = distOf p d ∧ q.kwx = distKwxC s.l (distOf p d) (lrKwx p s.h) ∧
      s.h.dls.x0 = smoothHorizon p.he.x0 p.gme ∧ s.h.dls.x1 = smoothHorizon p.he.x1 p.gme ∧
      s.l.dmin = |p.he.x0 - p.he.x1| / 0.2 := by
  rw [lrprop_setup hm] at h
  obtain ⟨s, hs, h⟩ := bind_eq_ok.1 h
  obtain ⟨c, _, h⟩ := bind_eq_ok.1 h
  rw [pure_ok, ok_inj] at h
  refine ⟨s, hs, by rw [← h]; rfl, by rw [← h]; rfl, ?_⟩
  unfold setupC at hs
  obtain ⟨h0, hh, hs⟩ := bind_eq_ok.1 hs
  obtain ⟨c0, _, hs⟩ := bind_eq_ok.1 hs
  obtain ⟨l0, hl, hs⟩ := bind_eq_ok.1 hs
  rw [pure_ok, ok_inj] at hs
  subst hs
  exact ⟨(horC_dls hh).1, (horC_dls hh).2, lineC_dmin hl⟩

end Itm

namespace Itm.Props
open Itm Itm.Spec

/-- **C17** (second half) A violated hard limit always gives 4. -/
theorem C17_hard_limit {p q : PropSt ℝ} {d : ℝ} (hm : p.mdp ≠ 0) (h : lrprop d p = .ok q)
    (hv : HardViolation p q.dist) : q.kwx = 4 := by
  obtain ⟨s, _, hd, hk, _⟩ := setup_kwx hm h
  rw [← hd] at hk
  rw [hk]
  unfold HardViolation at hv
  unfold distKwxC
  have key : (p.wn < 0.419 ∨ 420 < p.wn ∨ p.hg.x0 < 0.5 ∨ 3000 < p.hg.x0 ∨ p.hg.x1 < 0.5 ∨ 3000 < p.hg.x1 ∨
      p.ens < 250 ∨ 400 < p.ens ∨ p.gme < 75e-9 ∨ 250e-9 < p.gme ∨ p.zgnd.re < |p.zgnd.im|) → lrKwx p s.h = 4 := by
    intro hv
    have e1 : (420.0 : ℝ) = 420 := by norm_num
    have e2 : (3000.0 : ℝ) = 3000 := by norm_num
    have e3 : (250.0 : ℝ) = 250 := by norm_num
    have e4 : (400.0 : ℝ) = 400 := by norm_num
    have f : ∀ {b : Prop} [Decidable b] {k : Int}, b ∨ k = 4 → (if b then 4 else k) = 4 := by
      intro b _ k h; split_ifs with c
      · rfl
      · exact h.resolve_left c
    unfold lrKwx
    simp only [rabs, e1, e2, e3, e4]
    rcases hv with h | h | h | h | h | h | h | h | h | h | h
    · exact f (.inr (f (.inr (f (.inl (by simp only [h, true_or, or_true]))))))
    · exact f (.inr (f (.inr (f (.inl (by simp only [h, or_true]))))))
    · exact f (.inr (f (.inl (.inl h))))
    · exact f (.inr (f (.inl (.inr h))))
    · exact f (.inl (.inl h))
    · exact f (.inl (.inr h))
    all_goals exact f (.inr (f (.inr (f (.inl (by simp only [h, true_or, or_true]))))))
  by_cases hpos : (0 : ℝ) < q.dist
  · rw [zero_lit, if_pos hpos]
    simp only
    by_cases hf : q.dist < 1e3 ∨ 2000e3 < q.dist
    · rw [if_pos hf]
    · rw [if_neg hf]
      have := key (by tauto)
      split_ifs <;> omega
  · rw [zero_lit, if_neg hpos]
    exact key (by tauto)

/-- **C17** (first half, as far as it holds) `kwx = 0` after a set-up call only if every documented limit is met —
except the upper limit of the first terminal's horizon distance. Full statement: the same with
`TerminalOk p.hg.x0 …`; it is false, see `C17_kwx_zero_refuted`. -/
theorem C17_kwx_zero_partial {p q : PropSt ℝ} {d : ℝ} (hm : p.mdp ≠ 0) (h0 : 0 ≤ p.kwx) (h : lrprop d p = .ok q)
    (hk : q.kwx = 0) :
    SystemOk p ∧ TerminalOkNoMax p.hg.x0 p.he.x0 p.dl.x0 p.the.x0 p.gme ∧
      TerminalOk p.hg.x1 p.he.x1 p.dl.x1 p.the.x1 p.gme ∧ (0 < q.dist → DistOk p q.dist) ∧
      p.dl.x1 ≤ 3 * smoothHorizon p.he.x0 p.gme := by
  obtain ⟨s, _, hd, e, e0, e1, em⟩ := setup_kwx hm h
  rw [← hd] at e
  rw [hk] at e
  have hlr : lrKwx p s.h = 0 ∧ (0 < q.dist → DistOk p q.dist) := by
    have hge : 0 ≤ lrKwx p s.h := by unfold lrKwx; dsimp only; split_ifs <;> omega
    unfold distKwxC at e
    by_cases hpos : (0 : ℝ) < q.dist
    · rw [zero_lit, if_pos hpos, em] at e
      dsimp only at e
      by_cases h3 : q.dist < 1e3 ∨ 2000e3 < q.dist
      · rw [if_pos h3] at e; omega
      rw [if_neg h3] at e
      push Not at h3
      by_cases h2 : q.dist < |p.he.x0 - p.he.x1| / 0.2
      · rw [if_pos h2] at e
        split_ifs at e <;> omega
      rw [if_neg h2] at e
      by_cases h1 : 1000e3 < q.dist
      · rw [if_pos h1] at e; omega
      rw [if_neg h1] at e
      exact ⟨e.symm, fun _ => ⟨⟨h3.1, not_lt.1 h1⟩, not_lt.1 h2⟩⟩
    · rw [zero_lit, if_neg hpos] at e
      exact ⟨e.symm, fun h => absurd h hpos⟩
  obtain ⟨e', hdist⟩ := hlr
  unfold lrKwx at e'
  simp only [rabs, e0, e1] at e'
  have z : ∀ {b : Prop} [Decidable b] {k m : Int}, 0 ≤ k → 0 < m → (if b then max k m else k) = 0 → ¬ b ∧ k = 0 := by
    intro b _ k m hk hm e; split_ifs at e with c
    · omega
    · exact ⟨c, e⟩
  have f : ∀ {b : Prop} [Decidable b] {k : Int}, (if b then 4 else k) = 0 → ¬ b ∧ k = 0 := by
    intro b _ k e
    by_cases c : b
    · rw [if_pos c] at e; omega
    · rw [if_neg c] at e; exact ⟨c, e⟩
  have g : ∀ {b : Prop} [Decidable b] {k m : Int}, 0 ≤ k → 0 ≤ (if b then max k m else k) := by
    intro b _ k m hk; split_ifs <;> omega
  obtain ⟨_, e'⟩ := f e'
  obtain ⟨_, e'⟩ := f e'
  obtain ⟨hsys, e'⟩ := f e'
  obtain ⟨ht1, e'⟩ := z (g (g (g (g h0)))) (by decide) e'
  obtain ⟨ht0, e'⟩ := z (g (g (g h0))) (by decide) e'
  obtain ⟨hg1, e'⟩ := z (g (g h0)) (by decide) e'
  obtain ⟨hg0, e'⟩ := z (g h0) (by decide) e'
  obtain ⟨hwn, _⟩ := z h0 (by decide) e'
  push Not at hsys ht1 ht0 hg1 hg0 hwn
  have c1 : (210.0 : ℝ) = 210 := by norm_num
  have c2 : (1.0 : ℝ) = 1 := by norm_num
  have c3 : (1000.0 : ℝ) = 1000 := by norm_num
  have c4 : (3.0 : ℝ) = 3 := by norm_num
  have c5 : (250.0 : ℝ) = 250 := by norm_num
  have c6 : (400.0 : ℝ) = 400 := by norm_num
  rw [c1] at hwn
  rw [c2, c3] at hg0 hg1
  rw [c4] at ht0 ht1
  rw [c5, c6] at hsys
  exact ⟨⟨hwn, ⟨hsys.1, hsys.2.1⟩, ⟨hsys.2.2.1, hsys.2.2.2.1⟩, hsys.2.2.2.2.1⟩, ⟨hg0, ht0.1, ht0.2.1⟩,
    ⟨hg1, ht1.1, ht1.2.1, ht1.2.2⟩, hdist, ht0.2.2⟩

/-- The marker of the skew link at 300 km stays 0. -/
theorem skew_kwx : ∃ q, lrprop 300000 skew = .ok q ∧ q.kwx = 0 := by
  obtain ⟨q, hq⟩ := skew_far 300000 (by norm_num)
  refine ⟨q, hq, ?_⟩
  obtain ⟨s, hs, _, e, e0, e1, em⟩ := setup_kwx (p := skew) (by decide) hq
  have hd : distOf skew (300000 : ℝ) = 300000 := if_pos (by decide)
  have hsq : smoothHorizon 400 1.25e-7 = 80000 := by
    unfold smoothHorizon
    rw [show (2 * 400 / 1.25e-7 : ℝ) = 80000 ^ 2 by norm_num, Real.sqrt_sq (by norm_num)]
  have v0 : s.h.dls.x0 = 80000 := e0.trans hsq
  have v1 : s.h.dls.x1 = 80000 := e1.trans hsq
  have vm : s.l.dmin = 0 := by
    rw [em, show skew.he = ⟨400, 400⟩ from rfl]; norm_num
  have hlr : lrKwx skew s.h = 0 := by
    unfold lrKwx
    simp only [v0, v1, rabs]
    rw [show skew.kwx = 0 from rfl, show skew.wn = (1 : ℝ) from rfl, show skew.hg = (⟨400, 400⟩ : Pair ℝ) from rfl,
      show skew.the = (⟨-(270000 * 1.25e-7), -0.01⟩ : Pair ℝ) from rfl, show skew.dl = (⟨270000, 80000⟩ : Pair ℝ) from rfl,
      show skew.ens = (301 : ℝ) from rfl, show skew.gme = (1.25e-7 : ℝ) from rfl, show skew.zgnd = (⟨4, 0⟩ : Cx ℝ) from rfl]
    have a1 : |(-(270000 * 1.25e-7) : ℝ)| = 270000 * 1.25e-7 := by rw [abs_neg, abs_of_pos (by norm_num)]
    have a2 : |(-0.01 : ℝ)| = 0.01 := by rw [abs_neg, abs_of_pos (by norm_num)]
    simp only [a1, a2, abs_zero]
    rw [if_neg (by norm_num), if_neg (by norm_num), if_neg (by norm_num), if_neg (by norm_num), if_neg (by norm_num),
      if_neg (by norm_num), if_neg (by norm_num), if_neg (by norm_num)]
  rw [e, hd, hlr]
  unfold distKwxC
  rw [vm, zero_lit, if_pos (by norm_num)]
  simp only
  rw [if_neg (by norm_num), if_neg (by norm_num), if_neg (by norm_num)]

/-- **C17** (first half, refuted) There is a link with `kwx = 0` whose first horizon distance exceeds three times the
smooth-earth horizon distance: `lrprop.py` line 65 tests the other terminal's. -/
theorem C17_kwx_zero_refuted : ¬ ∀ (p q : PropSt ℝ) (d : ℝ), p.mdp ≠ 0 → 0 ≤ p.kwx → lrprop d p = .ok q → q.kwx = 0 →
    TerminalOk p.hg.x0 p.he.x0 p.dl.x0 p.the.x0 p.gme := by
  intro hall
  obtain ⟨q, hq, hk⟩ := skew_kwx
  have := (hall skew q 300000 (by decide) (by decide) hq hk).dlmax
  have hsq : smoothHorizon 400 1.25e-7 = 80000 := by
    unfold smoothHorizon
    rw [show (2 * 400 / 1.25e-7 : ℝ) = 80000 ^ 2 by norm_num, Real.sqrt_sq (by norm_num)]
  rw [show skew.dl.x0 = 270000 from rfl, show skew.he.x0 = 400 from rfl, show skew.gme = 1.25e-7 from rfl, hsq] at this
  norm_num at this

/-- A marker `k` that is the larger of its old value `k0` and a level `j`. -/
def Raised (k0 k j : Int) : Prop := k = max k0 j ∧ 0 ≤ j ∧ j ≤ 4

theorem Raised.step {k0 k j n : Int} (h : Raised k0 k j) (hn : 0 ≤ n) (hn' : n ≤ 4) (b : Prop) [Decidable b] :
    Raised k0 (if b then max k n else k) (max j (if b then n else 0)) := by
  obtain ⟨e, h1, h2⟩ := h
  unfold Raised
  split_ifs <;> omega

theorem Raised.four {k0 k j : Int} (h : Raised k0 k j) (h0 : k0 ≤ 4) (b : Prop) [Decidable b] :
    Raised k0 (if b then 4 else k) (max j (if b then 4 else 0)) := by
  obtain ⟨e, h1, h2⟩ := h
  unfold Raised
  split_ifs <;> omega

open Classical in
/-- `n` if the proposition holds. -/
noncomputable def ind (b : Prop) (n : Int) : Int := if b then n else 0

theorem ite_ind {b : Prop} [Decidable b] (n : Int) : (if b then n else 0) = ind b n := by
  unfold ind; congr

theorem ind_or {a b : Prop} {n : Int} (hn : 0 ≤ n) : ind (a ∨ b) n = max (ind a n) (ind b n) := by
  unfold ind
  by_cases ha : a <;> by_cases hb : b <;> simp [ha, hb, hn]

theorem ind_nonneg {b : Prop} {n : Int} (hn : 0 ≤ n) : 0 ≤ ind b n := by
  unfold ind; split_ifs
  · exact hn
  · exact le_rfl

open Classical in
theorem level_max (a b c : Prop) : level a b c = max (max (if a then 4 else 0) (if b then 3 else 0)) (if c then 1 else 0) := by
  unfold level
  split_ifs <;> rfl

/-- **C17** (what the marker means, exactly) After a set-up call the marker is the larger of its old value and the level of the violated
limits: 4 for a hard limit, 3 for an internal parameter, 1 for a soft limit, where the upper limit of the first terminal's horizon distance
is applied to the second terminal's (`lrprop.py` line 65). -/
theorem C17_marker_exact {p q : PropSt ℝ} {d : ℝ} (hm : p.mdp ≠ 0) (h0 : 0 ≤ p.kwx) (h4 : p.kwx ≤ 4) (h : lrprop d p = .ok q) :
    q.kwx = max p.kwx (level (HardViolation p q.dist)
      ((0.2 < |p.the.x0| ∨ p.dl.x0 < 0.1 * smoothHorizon p.he.x0 p.gme ∨ 3 * smoothHorizon p.he.x0 p.gme < p.dl.x1) ∨
        HorizonViolation p.he.x1 p.dl.x1 p.the.x1 p.gme ∨ (0 < q.dist ∧ q.dist < |p.he.x0 - p.he.x1| / 0.2))
      (SoftViolation p q.dist)) := by
  classical
  obtain ⟨s, _, hd, e, e0, e1, em⟩ := setup_kwx hm h
  rw [← hd] at e
  have R0 : Raised p.kwx p.kwx 0 := ⟨(max_eq_left h0).symm, le_rfl, by norm_num⟩
  have R1 := (((((((R0.step (n := 1) (by norm_num) (by norm_num) (p.wn < 0.838 ∨ 210.0 < p.wn)).step (n := 1) (by norm_num) (by norm_num)
    (p.hg.x0 < 1.0 ∨ 1000.0 < p.hg.x0)).step (n := 1) (by norm_num) (by norm_num) (p.hg.x1 < 1.0 ∨ 1000.0 < p.hg.x1)).step (n := 3) (by norm_num)
    (by norm_num) (0.2 < |p.the.x0| ∨ p.dl.x0 < 0.1 * s.h.dls.x0 ∨ 3.0 * s.h.dls.x0 < p.dl.x1)).step (n := 3) (by norm_num)
    (by norm_num) (0.2 < |p.the.x1| ∨ p.dl.x1 < 0.1 * s.h.dls.x1 ∨ 3.0 * s.h.dls.x1 < p.dl.x1)).four h4
    (p.ens < 250.0 ∨ 400.0 < p.ens ∨ p.gme < 75e-9 ∨ 250e-9 < p.gme ∨ p.zgnd.re < |p.zgnd.im| ∨ p.wn < 0.419 ∨ 420.0 < p.wn)).four h4
    (p.hg.x0 < 0.5 ∨ 3000.0 < p.hg.x0)).four h4 (p.hg.x1 < 0.5 ∨ 3000.0 < p.hg.x1)
  have R2 : Raised p.kwx (lrKwx p s.h) _ := R1
  have R3 := ((R2.step (n := 1) (by norm_num) (by norm_num) (1000e3 < q.dist)).step (n := 3) (by norm_num) (by norm_num) (q.dist < s.l.dmin)).four h4
    (q.dist < 1e3 ∨ 2000e3 < q.dist)
  clear R1
  unfold distKwxC at e
  rw [level_max]
  unfold HardViolation SoftViolation HorizonViolation
  rw [e0, e1] at R2 R3
  rw [em] at R3 e
  have c1 : (210.0 : ℝ) = 210 := by norm_num
  have c2 : (1.0 : ℝ) = 1 := by norm_num
  have c3 : (1000.0 : ℝ) = 1000 := by norm_num
  have c4 : (3.0 : ℝ) = 3 := by norm_num
  have c5 : (250.0 : ℝ) = 250 := by norm_num
  have c6 : (400.0 : ℝ) = 400 := by norm_num
  have c7 : (420.0 : ℝ) = 420 := by norm_num
  have c8 : (3000.0 : ℝ) = 3000 := by norm_num
  simp only [c1, c2, c3, c4, c5, c6, c7, c8] at R2 R3
  by_cases hpos : 0 < q.dist
  · rw [zero_lit, if_pos hpos] at e
    dsimp only at e
    simp only [hpos, true_and]
    rw [e, R3.1]
    congr 1
    simp only [ite_ind, ind_or (show (0:Int) ≤ 4 by norm_num), ind_or (show (0:Int) ≤ 3 by norm_num), ind_or (show (0:Int) ≤ 1 by norm_num)]
    rw [max_eq_right (le_max_of_le_left (ind_nonneg (b := p.wn < 0.838) (show (0:Int) ≤ 1 by norm_num)))]
    generalize ind _ _ = x1
    ac_rfl
  · rw [zero_lit, if_neg hpos] at e
    have hs : ¬ (1000e3 < q.dist) := fun hc => hpos (lt_trans (by norm_num) hc)
    simp only [hpos, false_and, or_false, hs]
    rw [e, R2.1]
    congr 1
    simp only [ite_ind, ind_or (show (0:Int) ≤ 4 by norm_num), ind_or (show (0:Int) ≤ 3 by norm_num), ind_or (show (0:Int) ≤ 1 by norm_num)]
    rw [max_eq_right (le_max_of_le_left (ind_nonneg (b := p.wn < 0.838) (show (0:Int) ≤ 1 by norm_num)))]
    ac_rfl

/-- **C17** (the full claim, as far as it holds) After a set-up call the marker is the larger of its old value and the documented level, provided
the two horizon distances are on the same side of three times the first smooth-earth distance. Full statement: without the proviso; false,
see `C17_kwx_zero_refuted`. -/
theorem C17_marker_partial {p q : PropSt ℝ} {d : ℝ} (hm : p.mdp ≠ 0) (h0 : 0 ≤ p.kwx) (h4 : p.kwx ≤ 4) (h : lrprop d p = .ok q)
    (hs : 3 * smoothHorizon p.he.x0 p.gme < p.dl.x1 ↔ 3 * smoothHorizon p.he.x0 p.gme < p.dl.x0) :
    q.kwx = max p.kwx (warning p q.dist) := by
  rw [C17_marker_exact hm h0 h4 h, hs]
  rfl

/-- The hypotheses of `C17_kwx_zero_partial` are met by a real call. -/
example : ∃ q, lrprop 300000 skew = .ok q ∧ q.kwx = 0 ∧ SystemOk skew := by
  obtain ⟨q, hq, hk⟩ := skew_kwx
  exact ⟨q, hq, hk, (C17_kwx_zero_partial (by decide) (by decide) hq hk).1⟩

/-- A hard violation that really happens: 3000 km on the smooth link. -/
example : ∃ q, lrprop 3000000 smooth = .ok q ∧ q.kwx = 4 := by
  obtain ⟨q, hq⟩ := smooth_total 3000000 (by norm_num)
  refine ⟨q, hq, C17_hard_limit (by decide) hq ?_⟩
  have := C21_area_takes (p := smooth) (d := 3000000) (by decide) hq
  unfold HardViolation
  rw [this.1]
  norm_num

/-- The smooth link meets the proviso of `C17_marker_partial`. -/
example : ∃ q, lrprop 50000 smooth = .ok q ∧ q.kwx = max smooth.kwx (warning smooth q.dist) := by
  obtain ⟨q, hq⟩ := smooth_total 50000 (by norm_num)
  exact ⟨q, hq, C17_marker_partial (by decide) (by decide) (by decide) hq Iff.rfl⟩

/-- C18 on a real call. -/
example : ∃ q a, lrprop 50000 smooth = .ok q ∧ q.aref = some a ∧ 0 ≤ a := by
  obtain ⟨q, hq⟩ := smooth_total 50000 (by norm_num)
  obtain ⟨a, ha, h0⟩ := C18_aref_nonneg hq
  exact ⟨q, a, hq, ha, h0⟩

/-- C21 on a real area call. -/
example : ∃ q, lrprop 50000 smooth = .ok q ∧ q.dist = 50000 ∧ q.mdp = 0 := by
  obtain ⟨q, hq⟩ := smooth_total 50000 (by norm_num)
  exact ⟨q, hq, (C21_area_takes (by decide) hq).1, (C21_area_takes (by decide) hq).2⟩

end Itm.Props
