import Verif.Lemmas.ScatReal
import Verif.Spec.Recip

/-! Exchange of the terminals, stage by stage, over the reals. -/

namespace Itm
open Spec

def swapIn (i : LrIn ℝ) : LrIn ℝ := { i with hg := i.hg.swap, he := i.he.swap, dl := i.dl.swap, the := i.the.swap }

def swapH (h : Horizon ℝ) : Horizon ℝ := { h with dls := h.dls.swap }

theorem inp_exchange (p : PropSt ℝ) : inp (exchange p) = swapIn (inp p) := rfl

theorem horC_swap {i : LrIn ℝ} {h : Horizon ℝ} (hh : horC i = .ok h) : horC (swapIn i) = .ok (swapH h) := by
  unfold horC lrHorizon at hh ⊢
  obtain ⟨a, ha, hh⟩ := bind_eq_ok.1 hh
  obtain ⟨b, hb, hh⟩ := bind_eq_ok.1 hh
  obtain ⟨c, hc, hh⟩ := bind_eq_ok.1 hh
  obtain ⟨d, hd, hh⟩ := bind_eq_ok.1 hh
  have ha' : 2.0 * (blank 0 (swapIn i)).he.x1 /! (blank 0 (swapIn i)).gme = .ok a := ha
  have hc' : 2.0 * (blank 0 (swapIn i)).he.x0 /! (blank 0 (swapIn i)).gme = .ok c := hc
  rw [hc', ok_bind, hd, ok_bind, ha', ok_bind, hb, ok_bind, pure_ok]
  rw [pure_ok, ok_inj] at hh
  rw [← hh]
  simp only [swapH, Pair.swap, swapIn, blank]
  rw [add_comm d b, add_comm i.dl.x1, add_comm i.the.x1]

theorem adiffInit_swap {mdp : Int} {i : LrIn ℝ} {h : Horizon ℝ} {oc oc' : Option (DiffC ℝ)} {r : ℝ × PropSt ℝ}
    (hr : adiffInit { blank mdp i with hor := some h, diff := oc } = .ok r) :
    adiffInit { blank mdp (swapIn i) with hor := some (swapH h), diff := oc' } =
      .ok (r.1, { blank mdp (swapIn i) with hor := some (swapH h), diff := r.2.diff }) := by
  unfold adiffInit at hr ⊢
  simp only [need, ok_bind] at hr ⊢
  obtain ⟨a1, h1, hr⟩ := bind_eq_ok.1 hr
  obtain ⟨a2, h2, hr⟩ := bind_eq_ok.1 hr
  obtain ⟨a3, h3, hr⟩ := bind_eq_ok.1 hr
  obtain ⟨a4, h4, hr⟩ := bind_eq_ok.1 hr
  obtain ⟨a5, h5, hr⟩ := bind_eq_ok.1 hr
  obtain ⟨a6, h6, hr⟩ := bind_eq_ok.1 hr
  obtain ⟨⟨q0, f0⟩, h7, hr⟩ := bind_eq_ok.1 hr
  obtain ⟨⟨q1, f1⟩, h8, hr⟩ := bind_eq_ok.1 hr
  simp only [pure_ok, ok_inj] at hr
  have e1 : i.he.x1 * i.he.x0 - i.hg.x1 * i.hg.x0 = i.he.x0 * i.he.x1 - i.hg.x0 * i.hg.x1 := by ring
  have e2 : (if mdp < 0 then i.hg.x1 * i.hg.x0 + 10.0 else i.hg.x1 * i.hg.x0) = (if mdp < 0 then i.hg.x0 * i.hg.x1 + 10.0 else i.hg.x0 * i.hg.x1) := by
    rw [mul_comm]
  have e3 : (0.0 : ℝ) + q1 + q0 = 0.0 + q0 + q1 := by ring
  have e4 : (20.0 : ℝ) + f1 + f0 = 20.0 + f0 + f1 := by ring
  refine bind_eq_ok.2 ⟨a1, Eq.trans (congrArg₂ pyDiv e1 e2) h1, ?_⟩
  refine bind_eq_ok.2 ⟨a2, h2, ?_⟩
  refine bind_eq_ok.2 ⟨a3, h3, ?_⟩
  refine bind_eq_ok.2 ⟨a4, h4, ?_⟩
  refine bind_eq_ok.2 ⟨a5, Eq.trans ?_ h5, ?_⟩
  · simp only [swapIn, blank, Pair.swap, swapH]
    rw [mul_right_comm _ i.hg.x1]
  refine bind_eq_ok.2 ⟨a6, h6, ?_⟩
  refine bind_eq_ok.2 ⟨(q1, f1), h8, ?_⟩
  refine bind_eq_ok.2 ⟨(q0, f0), h7, ?_⟩
  simp only [pure_ok, ok_inj, ← hr, Prod.mk.injEq, true_and]
  rw [e3, e4]
  rfl

theorem diffC_swap {mdp : Int} {i : LrIn ℝ} {h : Horizon ℝ} {c : DiffC ℝ} (hc : diffC mdp i h = .ok c) :
    diffC mdp (swapIn i) (swapH h) = .ok c := by
  unfold diffC at hc ⊢
  obtain ⟨⟨a, q⟩, hq, hc⟩ := bind_eq_ok.1 hc
  have e := adiffInit_swap (oc := none) (oc' := none) (r := (a, q)) hq
  have e' : adiffInit { blank mdp (swapIn i) with hor := some (swapH h) } = _ := e
  rw [e', ok_bind]
  exact hc

theorem adiffC_swap {mdp : Int} {i : LrIn ℝ} {h : Horizon ℝ} {c : DiffC ℝ} {d a : ℝ} (ha : adiffC mdp i h c d = .ok a) :
    adiffC mdp (swapIn i) (swapH h) c d = .ok a := by
  unfold adiffC adiff at ha ⊢
  by_cases hz : pyEq d 0.0
  · rw [if_pos hz] at ha ⊢
    obtain ⟨⟨x, q⟩, hq, ha⟩ := bind_eq_ok.1 ha
    rw [adiffInit_swap (r := (x, q)) hq, ok_bind]
    exact ha
  · rw [if_neg hz] at ha ⊢
    obtain ⟨⟨x, q⟩, hq, ha⟩ := bind_eq_ok.1 ha
    obtain ⟨⟨ar, ke⟩, h1, hq⟩ := bind_eq_ok.1 hq
    have h1' : adiffParts d { blank mdp (swapIn i) with hor := some (swapH h), diff := some c } = .ok (ar, ke) := by
      unfold adiffParts at h1 ⊢
      simp only [need, ok_bind] at h1 ⊢
      obtain ⟨a1, e1, h1⟩ := bind_eq_ok.1 h1
      obtain ⟨a2, e2, h1⟩ := bind_eq_ok.1 h1
      obtain ⟨a3, e3, h1⟩ := bind_eq_ok.1 h1
      obtain ⟨a4, e4, h1⟩ := bind_eq_ok.1 h1
      obtain ⟨a5, e5, h1⟩ := bind_eq_ok.1 h1
      obtain ⟨a6, e6, h1⟩ := bind_eq_ok.1 h1
      obtain ⟨a7, e7, h1⟩ := bind_eq_ok.1 h1
      obtain ⟨a8, e8, h1⟩ := bind_eq_ok.1 h1
      simp only [swapIn, swapH, blank, Pair.swap] at *
      rw [e3, ok_bind, e4, ok_bind, e1, ok_bind, e2, ok_bind, e5, ok_bind, e6, ok_bind, e7, ok_bind, e8, ok_bind, add_comm a4 a2]
      exact h1
    have h2' : adiffWeight d { blank mdp (swapIn i) with hor := some (swapH h), diff := some c } =
        adiffWeight d { blank mdp i with hor := some h, diff := some c } := rfl
    rw [h1', ok_bind]
    simp only
    rw [h2']
    obtain ⟨wd, hw, hq⟩ := bind_eq_ok.1 hq
    rw [hw, ok_bind]
    simp only [need, ok_bind, pure_ok, ok_inj] at hq ha ⊢
    rw [← ha]
    simp only [Prod.mk.injEq] at hq
    exact hq.1

theorem lineC_swap {mdp : Int} {i : LrIn ℝ} {h : Horizon ℝ} {c : DiffC ℝ} {l : DiffLine ℝ} (hl : lineC mdp i h c = .ok l) :
    lineC mdp (swapIn i) (swapH h) c = .ok l := by
  unfold lineC lrLineWith at hl ⊢
  dsimp only at hl ⊢
  obtain ⟨xae, e1, hl⟩ := bind_eq_ok.1 hl
  obtain ⟨a3, e2, hl⟩ := bind_eq_ok.1 hl
  obtain ⟨a4, e3, hl⟩ := bind_eq_ok.1 hl
  obtain ⟨emd, e4, hl⟩ := bind_eq_ok.1 hl
  obtain ⟨wis, e5, hl⟩ := bind_eq_ok.1 hl
  have s1 : (swapIn i).wn = i.wn := rfl
  have s2 : (swapIn i).gme = i.gme := rfl
  have s3 : (swapIn i).dh = i.dh := rfl
  have s4 : (swapH h).dlsa = h.dlsa := rfl
  have s5 : (swapH h).dla = h.dla := rfl
  rw [s1, s2, s3, s4, s5, e1, ok_bind, adiffC_swap e2, ok_bind, adiffC_swap e3, ok_bind, e4, ok_bind, e5, ok_bind]
  rw [show (PyNum.abs ((swapIn i).he.x0 - (swapIn i).he.x1) : ℝ) = PyNum.abs (i.he.x0 - i.he.x1) from abs_sub_comm i.he.x1 i.he.x0]
  exact hl

theorem setupC_swap {mdp : Int} {i : LrIn ℝ} {s : Setup ℝ} (hs : setupC mdp i = .ok s) :
    setupC mdp (swapIn i) = .ok ⟨swapH s.h, s.c, s.l⟩ := by
  unfold setupC at hs ⊢
  obtain ⟨h, hh, hs⟩ := bind_eq_ok.1 hs
  obtain ⟨c, hc, hs⟩ := bind_eq_ok.1 hs
  obtain ⟨l, hl, hs⟩ := bind_eq_ok.1 hs
  rw [pure_ok, ok_inj] at hs
  rw [horC_swap hh, ok_bind, diffC_swap hc, ok_bind, lineC_swap hl, ok_bind, pure_ok, ← hs]

theorem losC_swap (i : LrIn ℝ) (h : Horizon ℝ) (l : DiffLine ℝ) : losC (swapIn i) (swapH h) l = losC i h l := by
  have e1 : ∀ d, alosRay d { blank 0 (swapIn i) with line := some l } = alosRay d { blank 0 i with line := some l } := by
    intro d
    unfold alosRay
    simp only [swapIn, blank, Pair.swap]
    rw [add_comm i.he.x1, mul_right_comm i.wn i.he.x1 i.he.x0]
  have e2 : ∀ d, alos d { blank 0 (swapIn i) with line := some l } = alos d { blank 0 i with line := some l } := by
    intro d
    unfold alos alosPlane alosExt
    rw [e1]
  have e3 : losDists { blank 0 (swapIn i) with line := some l } (swapH h) l = losDists { blank 0 i with line := some l } h l := by
    unfold losDists
    simp only [swapIn, swapH, blank, Pair.swap]
    rw [mul_right_comm _ i.he.x1 i.he.x0]
  unfold losC losCoef
  simp only [e2, e3]
  rfl

/-- Two scatter preparations that give the same answers. -/
def SameScat (s s' : ScatPrep ℝ) : Prop :=
  s'.ad = s.ad ∧ s'.etq = s.etq ∧ s'.h0s = s.h0s ∧ (s'.rr = s.rr ∨ s.ad = 0)

theorem scatPrep_swap {i : LrIn ℝ} {s : ScatPrep ℝ} (h0 : i.he.x0 ≠ 0) (h1 : i.he.x1 ≠ 0) (hs : scatPrep (blank 0 i) = .ok s) :
    ∃ s', scatPrep (blank 0 (swapIn i)) = .ok s' ∧ SameScat s s' := by
  unfold scatPrep at hs ⊢
  simp only [zero_lit] at hs ⊢
  rw [show (blank 0 i).he = i.he from rfl, show (blank 0 i).dl = i.dl from rfl] at hs
  rw [show (blank 0 (swapIn i)).he = i.he.swap from rfl, show (blank 0 (swapIn i)).dl = i.dl.swap from rfl]
  rw [pyDiv_ok h0, ok_bind] at hs
  rw [show i.he.swap.x0 = i.he.x1 from rfl, show i.he.swap.x1 = i.he.x0 from rfl, show i.dl.swap.x0 = i.dl.x1 from rfl,
    show i.dl.swap.x1 = i.dl.x0 from rfl, pyDiv_ok h1, ok_bind]
  have r0 : i.he.x1 / i.he.x0 ≠ 0 := div_ne_zero h1 h0
  have r1 : i.he.x0 / i.he.x1 ≠ 0 := div_ne_zero h0 h1
  have one : (1.0 : ℝ) = 1 := by norm_num
  rcases lt_trichotomy (i.dl.x0 - i.dl.x1) 0 with c | c | c
  · rw [if_pos c, pyDiv_ok r0] at hs
    simp only [ok_bind, pure_ok, ok_inj] at hs
    rw [if_neg (by linarith)]
    simp only [ok_bind, pure_ok, ok_inj]
    refine ⟨_, rfl, ?_⟩
    rw [← hs]
    refine ⟨by simp only; ring, rfl, rfl, .inl ?_⟩
    simp only; rw [one, one_div_div]
  · rw [if_neg (by linarith)] at hs
    simp only [ok_bind, pure_ok, ok_inj] at hs
    rw [if_neg (by linarith)]
    simp only [ok_bind, pure_ok, ok_inj]
    refine ⟨_, rfl, ?_⟩
    rw [← hs]
    exact ⟨by simp only; linarith, rfl, rfl, .inr c⟩
  · rw [if_neg (by linarith)] at hs
    simp only [ok_bind, pure_ok, ok_inj] at hs
    rw [if_pos (by linarith), pyDiv_ok r1]
    simp only [ok_bind, pure_ok, ok_inj]
    refine ⟨_, rfl, ?_⟩
    rw [← hs]
    refine ⟨by simp only; ring, rfl, rfl, .inl ?_⟩
    simp only; rw [one, one_div_div]

theorem ascatR_swap (d : ℝ) (i : LrIn ℝ) :
    ascatR d (blank 0 (swapIn i)) = ((ascatR d (blank 0 i)).1, (ascatR d (blank 0 i)).2.2, (ascatR d (blank 0 i)).2.1) := by
  unfold ascatR
  simp only [swapIn, blank, Pair.swap]
  rw [add_comm i.the.x1]

theorem ascatH0_swap {i : LrIn ℝ} {s s' : ScatPrep ℝ} {d h0 : ℝ} (S : SameScat s s') (hh : ascatH0 d (blank 0 i) s = .ok h0) :
    ascatH0 d (blank 0 (swapIn i)) s' = .ok h0 := by
  obtain ⟨S1, S2, S3, S4⟩ := S
  unfold ascatH0 at hh ⊢
  rw [ascatR_swap, S1, S2, S3]
  generalize ascatR d (blank 0 i) = R at hh
  obtain ⟨th, r1, r2⟩ := R
  simp only at hh ⊢
  obtain ⟨ss, e1, hh⟩ := bind_eq_ok.1 hh
  obtain ⟨q, e2, hh⟩ := bind_eq_ok.1 hh
  obtain ⟨z0, e3, hh⟩ := bind_eq_ok.1 hh
  obtain ⟨f1, e4, hh⟩ := bind_eq_ok.1 hh
  obtain ⟨f2, e5, hh⟩ := bind_eq_ok.1 hh
  obtain ⟨l1, e6, hh⟩ := bind_eq_ok.1 hh
  obtain ⟨l2, e7, hh⟩ := bind_eq_ok.1 hh
  obtain ⟨l3, e8, hh⟩ := bind_eq_ok.1 hh
  -- the last factor: its value may differ only when the logarithm before it is 0
  have hss := (pyDiv_eq_ok.1 e2).1
  have hq' : ∃ l3', npLog (pyMin (pyMax 0.1 (s'.rr / ss)) 10.0) = .ok l3' ∧ l2 * l3' = l2 * l3 := by
    have hpos : 0 < pyMin (pyMax 0.1 (s'.rr / ss)) (10.0 : ℝ) := by
      rw [pyMin_real, pyMax_real]; exact lt_min (lt_of_lt_of_le (by norm_num) (le_max_left _ _)) (by norm_num)
    refine ⟨_, npLog_ok hpos, ?_⟩
    rcases S4 with e | e
    · rw [e, ← (pyDiv_eq_ok.1 e2).2, ← (npLog_eq_ok.1 e8).2]
    · have : ss = 1 := by
        have := (pyDiv_eq_ok.1 e1)
        rw [e] at this
        simp only [sub_zero, add_zero] at this
        rw [this.2]; exact div_self this.1
      have : l2 = 0 := by
        rw [(npLog_eq_ok.1 e7).2, this, pyMax_real, max_eq_right (by norm_num)]; exact Real.log_one
      rw [this]; ring
  obtain ⟨l3', e8', em⟩ := hq'
  rw [e1, ok_bind, pyDiv_ok hss, ok_bind, e3, ok_bind, e5, ok_bind, e4, ok_bind, e6, ok_bind, e7, ok_bind, e8', ok_bind]
  rw [show (f2 + f1) * 0.5 = (f1 + f2) * 0.5 by ring, show (1.38 - l1) * l2 * l3' * 0.49 = (1.38 - l1) * l2 * l3 * 0.49 by linear_combination (1.38 - l1) * 0.49 * em]
  split_ifs at hh ⊢ with hc
  · obtain ⟨a, g1, hh⟩ := bind_eq_ok.1 hh
    obtain ⟨b, g2, hh⟩ := bind_eq_ok.1 hh
    obtain ⟨c, g3, hh⟩ := bind_eq_ok.1 hh
    obtain ⟨e, g4, hh⟩ := bind_eq_ok.1 hh
    rw [g2, ok_bind, g1, ok_bind, mul_comm (1.0 + b), add_comm r2 r1, g3, ok_bind, g4, ok_bind]
    exact hh
  · exact hh

theorem ascatC_swap {i : LrIn ℝ} {h : Horizon ℝ} {s s' : ScatPrep ℝ} {a1 d : ℝ} {r : ℝ × ScatPrep ℝ} (S : SameScat s s')
    (hr : ascatC i h s a1 d = .ok r) : ∃ r', ascatC (swapIn i) (swapH h) s' a1 d = .ok r' ∧ r'.1 = r.1 ∧ SameScat r.2 r'.2 := by
  unfold ascatC at hr ⊢
  rw [S.2.2.1, ascatR_swap]
  have F : ∀ x, ascatFinal d x { blank 0 (swapIn i) with hor := some (swapH h) } = ascatFinal d x { blank 0 i with hor := some h } :=
    fun x => rfl
  by_cases c : 15.0 < s.h0s
  · rw [if_pos c] at hr ⊢
    obtain ⟨a, ha, hr⟩ := bind_eq_ok.1 hr
    rw [F, ha, ok_bind]
    rw [pure_ok, ok_inj] at hr
    exact ⟨_, rfl, by rw [← hr], by rw [← hr]; exact S⟩
  · rw [if_neg c] at hr ⊢
    obtain ⟨h0, hh0, hr⟩ := bind_eq_ok.1 hr
    obtain ⟨a, ha, hr⟩ := bind_eq_ok.1 hr
    rw [ascatH0_swap S hh0, ok_bind, F, ha, ok_bind]
    rw [pure_ok, ok_inj] at hr
    have ec : ∀ x y : ℝ, (if y < 0.2 ∧ x < 0.2 then 1001.0 else a1) = (if x < 0.2 ∧ y < 0.2 then 1001.0 else a1) := by
      intro x y
      by_cases c1 : x < 0.2 <;> by_cases c2 : y < 0.2 <;> simp only [c1, c2, and_self, and_false, false_and]
    simp only
    rw [ec]
    refine ⟨_, rfl, by rw [← hr], ?_⟩
    rw [← hr]
    simp only
    generalize (if (ascatR d (blank 0 i)).2.1 < 0.2 ∧ (ascatR d (blank 0 i)).2.2 < 0.2 then 1001.0 else a1) = v
    by_cases cv : ¬ pyEq v 1001.0
    · rw [if_pos cv, if_pos cv]; exact ⟨S.1, S.2.1, rfl, S.2.2.2⟩
    · rw [if_neg cv, if_neg cv]; exact S

theorem scatC_swap {i : LrIn ℝ} {h : Horizon ℝ} {l : DiffLine ℝ} {a1 : ℝ} {r : ℝ × ScatPrep ℝ × ScatC ℝ}
    (h0 : i.he.x0 ≠ 0) (h1 : i.he.x1 ≠ 0) (hr : scatC i h l a1 = .ok r) :
    ∃ r', scatC (swapIn i) (swapH h) l a1 = .ok r' ∧ r'.1 = r.1 ∧ r'.2.2 = r.2.2 := by
  unfold scatC at hr ⊢
  dsimp only at hr ⊢
  obtain ⟨s, hs, hr⟩ := bind_eq_ok.1 hr
  obtain ⟨x, hx, hr⟩ := bind_eq_ok.1 hr
  obtain ⟨y, hy, hr⟩ := bind_eq_ok.1 hr
  obtain ⟨c, hc, hr⟩ := bind_eq_ok.1 hr
  obtain ⟨s', hs', S⟩ := scatPrep_swap h0 h1 hs
  obtain ⟨x', hx', ex, S⟩ := ascatC_swap S hx
  rw [← ex] at hy hc
  obtain ⟨y', hy', ey, S⟩ := ascatC_swap S hy
  have e : (swapH h).dla = h.dla := rfl
  have C : ∀ d5 a5 a6, scatCoef (blank 0 (swapIn i)) (swapH h) l d5 a5 a6 = scatCoef (blank 0 i) h l d5 a5 a6 := fun _ _ _ => rfl
  rw [hs', ok_bind, e, hx', ok_bind, hy', ok_bind, C, ey, hc, ok_bind]
  rw [pure_ok, ok_inj] at hr
  exact ⟨_, rfl, by rw [← hr], by rw [← hr]⟩

theorem runC_swap {i : LrIn ℝ} {h : Horizon ℝ} {l : DiffLine ℝ} {D : ℝ} {c c' : LrCache ℝ} (h0 : i.he.x0 ≠ 0) (h1 : i.he.x1 ≠ 0)
    (hw : c.wscat = false) (hr : runC i h l D c = .ok c') :
    ∃ s', runC (swapIn i) (swapH h) l D c = .ok { c' with sprep := s' } := by
  unfold runC at hr ⊢
  obtain ⟨c1, e1, hr⟩ := bind_eq_ok.1 hr
  obtain ⟨c2, e2, hr⟩ := bind_eq_ok.1 hr
  have d1 : losStage (swapIn i) (swapH h) l D c = .ok c1 := by
    rw [← e1]; unfold losStage; rw [losC_swap]; rfl
  have w1 : c1.wscat = false := by
    unfold losStage at e1
    split_ifs at e1
    · obtain ⟨k, _, e1⟩ := bind_eq_ok.1 e1
      obtain ⟨a, _, e1⟩ := bind_eq_ok.1 e1
      rw [pure_ok, ok_inj] at e1; rw [← e1]; exact hw
    · obtain ⟨k, _, e1⟩ := bind_eq_ok.1 e1
      rw [pure_ok, ok_inj] at e1; rw [← e1]; exact hw
    · rw [pure_ok, ok_inj] at e1; rw [← e1]; exact hw
    · rw [pure_ok, ok_inj] at e1; rw [← e1]; exact hw
  have d2 : ∃ s', scatStage (swapIn i) (swapH h) l D c1 = .ok { c2 with sprep := s' } := by
    unfold scatStage scatSetupStage at e2 ⊢
    rw [show (swapH h).dlsa = h.dlsa from rfl]
    by_cases hc : D ≤ (0.0 : ℝ) ∨ h.dlsa ≤ D
    · rw [if_pos hc, if_pos w1] at e2 ⊢
      obtain ⟨c3, e3, e2⟩ := bind_eq_ok.1 e2
      obtain ⟨⟨a, s, k⟩, hx, e3⟩ := bind_eq_ok.1 e3
      obtain ⟨⟨a', s', k'⟩, hx', ea, ek⟩ := scatC_swap h0 h1 hx
      simp only at ea ek
      subst ea ek
      simp only [pure_ok, ok_inj] at e3
      subst e3
      simp only [need, ok_bind, pure_ok, ok_inj] at e2
      refine ⟨some s', ?_⟩
      rw [hx']
      simp only [need, ok_bind, pure_ok, ok_inj]
      rw [← e2]
    · rw [if_neg hc] at e2 ⊢
      rw [pure_ok, ok_inj] at e2
      exact ⟨c2.sprep, by rw [pure_ok, e2]⟩
  obtain ⟨s', d2⟩ := d2
  refine ⟨s', ?_⟩
  rw [d1, ok_bind, d2, ok_bind]
  unfold clampStage at hr ⊢
  obtain ⟨a, ha, hr⟩ := bind_eq_ok.1 hr
  simp only
  rw [ha, ok_bind]
  rw [pure_ok, ok_inj] at hr
  rw [pure_ok, ← hr]

end Itm
