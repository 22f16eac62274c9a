import Verif.Lemmas.Refine
import Verif.Model.Prep
import Verif.Lemmas.LineReal
import Verif.Spec.Clear

/-! Diffraction in arithmetics of growing precision. -/

namespace Itm
open Itm.Spec Filter Asymptotics Topology

variable {ι : Type} {l : Filter ι} {α : ι → Type} [∀ i, PyNum (α i)] {ε : ι → ℝ} {F : Refining l α ε}

theorem refine_aknfe {a : ∀ i, α i} {x : ℝ} (h : F.Approx a x) (h0 : x ≠ 0) (h1 : x ≠ 5.76) : Follows l F.Approx (fun i => aknfe (a i)) (aknfe x) := by
  unfold aknfe
  refine Follows.ite (h.lt_iff (by appr) h1) (fun _ => ?_) (fun _ => ?_)
  · have e : F.Approx (fun i => if a i ≤ 0.0 then 0.00001 else a i) (if x ≤ 0.0 then 0.00001 else x) := by
      have z : (0.0 : ℝ) = 0 := by norm_num
      have lt := h.le_iff (Follows.zero (F := F)) h0
      by_cases c : x ≤ 0
      · rw [if_pos (by rw [z]; exact c)]
        refine (Refining.Approx.lit 1 true 5).congr ?_
        filter_upwards [lt] with i hi
        rw [if_pos (hi.2 c)]
      · rw [if_neg (by rw [z]; exact c)]
        refine h.congr ?_
        filter_upwards [lt] with i hi
        rw [if_neg (fun q => c (hi.1 q))]
    refine Follows.bind (Follows.sqrt e ?_) (fun b s _ hb => Follows.pure ?_)
    · split_ifs with c
      · norm_num
      · exact h0
    · appr
  · refine Follows.bind (Follows.log h) (fun b s _ hb => Follows.pure ?_)
    appr

theorem refine_fht {a b : ∀ i, α i} {x k : ℝ} (h : F.Approx a x) (hk : F.Approx b k) (c : GainClear x k) :
    Follows l F.Approx (fun i => fht (a i) (b i)) (fht x k) := by
  unfold fht
  have e200 : (200.0 : ℝ) = 200 := by norm_num
  refine Follows.ite (h.lt_iff (by appr) (by rw [e200]; exact c.far)) (fun _ => ?_) (fun _ => ?_)
  · refine Follows.bind (Follows.log hk) (fun lp s hs hlp => ?_)
    obtain ⟨-, rfl⟩ := npLog_eq_ok.1 hs
    refine Follows.ite (ev_or (hk.lt_iff (by appr) c.small) (Refining.Approx.lt_iff (Refining.Approx.lit _ _ _) (by appr) ?_)) (fun _ => ?_) (fun _ => ?_)
    · rw [npow_real]
      intro q
      apply c.cube
      rw [← show (5495.0 : ℝ) = 5495 by norm_num]
      exact q.symm
    · refine Follows.ite (Refining.Approx.lt_iff (Refining.Approx.lit _ _ _) h ?_) (fun _ => ?_) (fun _ => ?_)
      · rw [show (1.0 : ℝ) = 1 by norm_num]; exact c.near.symm
      · refine Follows.bind (Follows.log h) (fun b s _ hb => Follows.pure ?_)
        appr
      · refine Follows.pure ?_
        appr
    · refine Follows.bind (Follows.div (by appr) hk) (fun b s _ hb => Follows.pure ?_)
      appr
  · refine Follows.bind (Follows.log h) (fun b s _ hb => ?_)
    refine Follows.ite (h.lt_iff (by appr) ?_) (fun _ => ?_) (fun _ => ?_)
    · rw [show (2000.0 : ℝ) = 2000 by norm_num]; exact c.mid
    · refine Follows.pure ?_
      appr
    · refine Follows.pure ?_
      appr

/-- Approximation of the inputs of `lrprop`. -/
structure InApx (F : Refining l α ε) (I : ∀ i, LrIn (α i)) (x : LrIn ℝ) : Prop where
  hg0 : F.Approx (fun i => (I i).hg.x0) x.hg.x0
  hg1 : F.Approx (fun i => (I i).hg.x1) x.hg.x1
  he0 : F.Approx (fun i => (I i).he.x0) x.he.x0
  he1 : F.Approx (fun i => (I i).he.x1) x.he.x1
  dl0 : F.Approx (fun i => (I i).dl.x0) x.dl.x0
  dl1 : F.Approx (fun i => (I i).dl.x1) x.dl.x1
  the0 : F.Approx (fun i => (I i).the.x0) x.the.x0
  the1 : F.Approx (fun i => (I i).the.x1) x.the.x1
  wn : F.Approx (fun i => (I i).wn) x.wn
  dh : F.Approx (fun i => (I i).dh) x.dh
  ens : F.Approx (fun i => (I i).ens) x.ens
  gme : F.Approx (fun i => (I i).gme) x.gme
  zre : F.Approx (fun i => (I i).zgnd.re) x.zgnd.re
  zim : F.Approx (fun i => (I i).zgnd.im) x.zgnd.im

/-- Approximation of the horizon quantities. -/
structure HorApx (F : Refining l α ε) (H : ∀ i, Horizon (α i)) (h : Horizon ℝ) : Prop where
  dlsa : F.Approx (fun i => (H i).dlsa) h.dlsa
  dla : F.Approx (fun i => (H i).dla) h.dla
  tha : F.Approx (fun i => (H i).tha) h.tha

/-- Approximation of the diffraction constants. -/
structure DifApx (F : Refining l α ε) (C : ∀ i, DiffC (α i)) (c : DiffC ℝ) : Prop where
  qk : F.Approx (fun i => (C i).qk) c.qk
  wd1 : F.Approx (fun i => (C i).wd1) c.wd1
  xd1 : F.Approx (fun i => (C i).xd1) c.xd1
  afo : F.Approx (fun i => (C i).afo) c.afo
  aht : F.Approx (fun i => (C i).aht) c.aht
  xht : F.Approx (fun i => (C i).xht) c.xht

theorem refine_hor {I : ∀ i, LrIn (α i)} {x : LrIn ℝ} (h : InApx F I x) (a : Adm x) : Follows l (HorApx F) (fun i => horC (I i)) (horC x) := by
  obtain ⟨g0, g1, e0, e1, d0, d1, t0, t1, w, dh, en, gm, zr, zi⟩ := h
  unfold horC lrHorizon
  have p0 : (2.0 : ℝ) * x.he.x0 / x.gme ≠ 0 := by have := a.he0; have := a.gme; positivity
  have p1 : (2.0 : ℝ) * x.he.x1 / x.gme ≠ 0 := by have := a.he1; have := a.gme; positivity
  refine Follows.bind (Follows.div (F := F) (by appr) gm) (fun b s hs hb => ?_)
  obtain ⟨-, rfl⟩ := pyDiv_eq_ok.1 hs
  refine Follows.bind (Follows.sqrt hb p0) (fun b s _ hb => ?_)
  refine Follows.bind (Follows.div (F := F) (by appr) gm) (fun b' s' hs' hb' => ?_)
  obtain ⟨-, rfl⟩ := pyDiv_eq_ok.1 hs'
  refine Follows.bind (Follows.sqrt hb' p1) (fun b' s' _ hb' => ?_)
  refine Follows.pure ⟨?_, ?_, ?_⟩
  · appr
  · exact d0.add d1
  · exact (t0.add t1).pyMax ((d0.add d1).neg.mul gm)

theorem refine_third : F.Approx (fun i => (third : α i)) (third : ℝ) := by
  unfold third
  exact (Refining.Approx.lit _ _ _).div (Refining.Approx.lit _ _ _) (by norm_num)

theorem refine_term {w k d e : ∀ i, α i} {wn qk dl he : ℝ} (hw : F.Approx w wn) (hk : F.Approx k qk) (hd : F.Approx d dl) (he' : F.Approx e he)
    (pw : 0 < wn) (pd : 0 < dl) (pe : 0 < he) (c : GainClear (termQ wn qk dl he) (termPk wn qk dl he)) :
    Follows l (fun b y => F.Approx (fun i => (b i).1) y.1 ∧ F.Approx (fun i => (b i).2) y.2)
      (fun i => adiffTerm (w i) (k i) (d i) (e i)) (adiffTerm wn qk dl he) := by
  unfold adiffTerm
  refine Follows.bind (Follows.div (F := F) (by appr) he') (fun b s hs hb => ?_)
  obtain ⟨-, rfl⟩ := pyDiv_eq_ok.1 hs
  have pa := termA_pos pd pe
  have ea : (0.5 : ℝ) * npow dl 2 / he = termA dl he := by rw [npow_real]; rfl
  rw [ea] at hb ⊢
  refine Follows.bind (Follows.pow (hb.mul hw) refine_third (mul_pos pa pw).ne') (fun b1 s hs hb1 => ?_)
  obtain ⟨-, -, rfl⟩ := pyPow_eq_ok.1 hs
  refine Follows.bind (Follows.div hk hb1) (fun b2 s hs hb2 => ?_)
  obtain ⟨-, rfl⟩ := pyDiv_eq_ok.1 hs
  refine Follows.bind (Follows.div (F := F) (by appr) hb) (fun b3 s hs hb3 => ?_)
  obtain ⟨-, rfl⟩ := pyDiv_eq_ok.1 hs
  refine Follows.bind (refine_fht hb3 hb2 c) (fun b4 s hs hb4 => ?_)
  exact Follows.pure ⟨hb3, hb4⟩

theorem refine_cxabs {r m : ∀ i, α i} {z : Cx ℝ} (hr : F.Approx r z.re) (hm : F.Approx m z.im) (hz : z.normSq ≠ 0) :
    F.Approx (fun i => Cx.abs ⟨r i, m i⟩) z.abs := by
  unfold Cx.abs
  have e : F.Approx (fun i => Cx.normSq ⟨r i, m i⟩) z.normSq := by unfold Cx.normSq; appr
  refine e.sqrt (lt_of_le_of_ne ?_ hz.symm)
  unfold Cx.normSq
  nlinarith [mul_self_nonneg z.re, mul_self_nonneg z.im]

/-- Neither height gain is at a threshold. -/
structure TermClear (x : LrIn ℝ) : Prop where
  t0 : GainClear (termQ x.wn (1.0 / x.zgnd.abs) x.dl.x0 x.he.x0) (termPk x.wn (1.0 / x.zgnd.abs) x.dl.x0 x.he.x0)
  t1 : GainClear (termQ x.wn (1.0 / x.zgnd.abs) x.dl.x1 x.he.x1) (termPk x.wn (1.0 / x.zgnd.abs) x.dl.x1 x.he.x1)

theorem dhAt_pos {dh d : ℝ} (h : 0 < dh) (hd : 0 ≤ d) : 0 < dhAt dh d := by
  unfold dhAt
  have : Real.exp (-d / 50e3) ≤ 1 := Real.exp_le_one_iff.2 (by rw [neg_div]; linarith [div_nonneg hd (by norm_num : (0:ℝ) ≤ 50e3)])
  generalize Real.exp (-d / 50e3) = E at *
  refine mul_pos ?_ h
  norm_num; linarith

theorem refine_dhAt {a b : ∀ i, α i} {dh d : ℝ} (h : F.Approx a dh) (hd : F.Approx b d) :
    F.Approx (fun i => (1.0 - 0.8 * PyNum.exp (-b i / 50e3)) * a i) (dhAt dh d) := by
  unfold dhAt
  have e : F.Approx (fun i => -b i / 50e3) (-d / 50e3) := hd.neg.div (Refining.Approx.lit _ _ _) (by norm_num)
  have e1 := ((Refining.Approx.lit (F := F) 10 true 1).sub ((Refining.Approx.lit 8 true 1).mul e.exp)).mul h
  exact e1

theorem refine_diff {I : ∀ i, LrIn (α i)} {x : LrIn ℝ} {H : ∀ i, Horizon (α i)} {h : Horizon ℝ} {mdp : Int} (hi : InApx F I x) (hh : HorApx F H h)
    (a : Adm x) (pdh : 0 < x.dh) (pd : 0 < h.dlsa) (c : TermClear x) : Follows l (DifApx F) (fun i => diffC mdp (I i) (H i)) (diffC mdp x h) := by
  obtain ⟨g0, g1, e0, e1, d0, d1, t0, t1, w, dh, en, gm, zr, zi⟩ := hi
  obtain ⟨s1, s2, s3⟩ := hh
  have a1 := a.hg0; have a2 := a.hg1; have a3 := a.he0; have a4 := a.he1
  unfold diffC adiffInit
  simp only [need, ok_bind, bind_assoc, pure_bind]
  have q : F.Approx (fun i => if mdp < 0 then (I i).hg.x0 * (I i).hg.x1 + 10.0 else (I i).hg.x0 * (I i).hg.x1) (hgq mdp x) := by
    unfold hgq
    split_ifs
    · appr
    · appr
  have hq : 0 < hgq mdp x := by unfold hgq; split_ifs <;> positivity
  have hq1 : 1.0 + (x.he.x0 * x.he.x1 - x.hg.x0 * x.hg.x1) / hgq mdp x ≠ 0 := by
    refine ne_of_gt ?_
    rw [show (1.0 : ℝ) = 1 by norm_num, ← div_self hq.ne', ← add_div]
    refine div_pos ?_ hq
    have : x.hg.x0 * x.hg.x1 ≤ hgq mdp x := by unfold hgq; split_ifs <;> norm_num
    nlinarith [mul_pos a3 a4]
  refine Follows.bind (Follows.div (F := F) ((e0.mul e1).sub (g0.mul g1)) q) (fun b s hs hb => ?_)
  obtain ⟨-, rfl⟩ := pyDiv_eq_ok.1 hs
  refine Follows.bind (Follows.sqrt ((Refining.Approx.lit 10 true 1).add hb) hq1) (fun wd s hs hwd => ?_)
  refine Follows.bind (Follows.div s3 gm) (fun b1 s hs hb1 => ?_)
  have pq := dhAt_pos pdh pd.le
  have rq := refine_dhAt dh s1
  have r16 : F.Approx (fun i => (1.0 - 0.8 * PyNum.exp (-(H i).dlsa / 50e3)) * (I i).dh / 16.0) (dhAt x.dh h.dlsa / 16.0) :=
    rq.div (Refining.Approx.lit _ _ _) (by norm_num)
  refine Follows.bind (Follows.pow r16 (Refining.Approx.lit _ _ _) ?_) (fun b2 s hs hb2 => ?_)
  · positivity
  have rs := ((Refining.Approx.lit (F := F) 78 true 2).mul rq).mul hb2.neg.exp
  refine Follows.bind (Follows.log (((Refining.Approx.lit _ _ _).add (((((Refining.Approx.lit _ _ _).mul g0).mul g1).mul w).mul rs)))) (fun b3 s hs hb3 => ?_)
  have hz := cxabs_pos a.zre
  have nz : x.zgnd.normSq ≠ 0 := by
    have := a.zre
    unfold Cx.normSq
    nlinarith [mul_pos this this, mul_self_nonneg x.zgnd.im]
  refine Follows.bind (Follows.div (Refining.Approx.lit _ _ _) (refine_cxabs zr zi nz)) (fun b4 s hs hb4 => ?_)
  obtain ⟨-, rfl⟩ := pyDiv_eq_ok.1 hs
  refine Follows.bind (refine_term w hb4 d0 e0 a.wn a.dl0 a.he0 c.t0) (fun b5 s hs hb5 => ?_)
  refine Follows.bind (refine_term w hb4 d1 e1 a.wn a.dl1 a.he1 c.t1) (fun b6 s hs hb6 => ?_)
  obtain ⟨u1, u2⟩ := hb5
  obtain ⟨u3, u4⟩ := hb6
  refine Follows.ok ⟨hb4, hwd, ?_, ?_, ?_, ?_⟩
  · exact s2.add hb1
  · appr
  · appr
  · appr

/-- Argument of the knife edge at a horizon. -/
noncomputable def knifeV (x : LrIn ℝ) (h : Horizon ℝ) (dl d : ℝ) : ℝ :=
  0.0795775 * x.wn * (d - h.dla) * (h.tha + d * x.gme) ^ 2 * dl / (d - h.dla + dl)

theorem refine_adiff {I : ∀ i, LrIn (α i)} {x : LrIn ℝ} {H : ∀ i, Horizon (α i)} {h : Horizon ℝ} {C : ∀ i, DiffC (α i)} {c : DiffC ℝ} {mdp : Int}
    {D : ∀ i, α i} {d : ℝ} (hi : InApx F I x) (hh : HorApx F H h) (hc : DifApx F C c) (hD : F.Approx D d) (a : Adm x) (pdh : 0 < x.dh)
    (hd : 0 < d) (hds : h.dla < d) (hth : 0 < h.tha + d * x.gme) (hw : 0 < c.wd1 + c.xd1 / d)
    (k0 : knifeV x h x.dl.x0 d ≠ 5.76) (k1 : knifeV x h x.dl.x1 d ≠ 5.76) :
    Follows l F.Approx (fun i => adiffC mdp (I i) (H i) (C i) (D i)) (adiffC mdp x h c d) := by
  obtain ⟨g0, g1, e0, e1, d0, d1, t0, t1, w, dh, en, gm, zr, zi⟩ := hi
  obtain ⟨s1, s2, s3⟩ := hh
  obtain ⟨c1, c2, c3, c4, c5, c6⟩ := hc
  have hds' : 0 < d - h.dla := by linarith
  have hdl0 := a.dl0; have hdl1 := a.dl1; have hwn := a.wn
  have th : F.Approx (fun i => (H i).tha + D i * (I i).gme) (h.tha + d * x.gme) := s3.add (hD.mul gm)
  have ds : F.Approx (fun i => D i - (H i).dla) (d - h.dla) := hD.sub s2
  have q : F.Approx (fun i => 0.0795775 * (I i).wn * (D i - (H i).dla) * npow ((H i).tha + D i * (I i).gme) 2)
      (0.0795775 * x.wn * (d - h.dla) * npow (h.tha + d * x.gme) 2) :=
    (((Refining.Approx.lit _ _ _).mul w).mul ds).mul (th.npow 2)
  unfold adiffC adiff
  have z0 : d ≠ 0.0 := by rw [zero_lit]; exact hd.ne'
  rw [if_neg (by rw [pyEq_real]; exact z0)]
  refine Follows.congr (m := fun i => do
    let r ← (do
      let (ar, ke) ← adiffParts (D i) { blank mdp (I i) with hor := some (H i), diff := some (C i) }
      let wd ← adiffWeight (D i) { blank mdp (I i) with hor := some (H i), diff := some (C i) }
      let c ← need ({ blank mdp (I i) with hor := some (H i), diff := some (C i) } : PropSt (α i)).diff "afo"
      pure (ar * wd + (1.0 - wd) * ke + c.afo, ({ blank mdp (I i) with hor := some (H i), diff := some (C i) } : PropSt (α i))))
    pure r.1) ?_ ?_
  swap
  · filter_upwards [hD.pyEq_not Follows.zero hd.ne'] with i hi
    rw [if_neg hi]
  unfold adiffParts adiffWeight
  simp only [need, ok_bind, bind_assoc, pure_ok]
  refine Follows.bind (Follows.div (F := F) (q.mul d0) (ds.add d0)) (fun b s hs hb => ?_)
  obtain ⟨-, rfl⟩ := pyDiv_eq_ok.1 hs
  have v0 : 0.0795775 * x.wn * (d - h.dla) * npow (h.tha + d * x.gme) 2 * x.dl.x0 / (d - h.dla + x.dl.x0) = knifeV x h x.dl.x0 d := by
    rw [npow_real]; rfl
  have v1 : 0.0795775 * x.wn * (d - h.dla) * npow (h.tha + d * x.gme) 2 * x.dl.x1 / (d - h.dla + x.dl.x1) = knifeV x h x.dl.x1 d := by
    rw [npow_real]; rfl
  have p0 : knifeV x h x.dl.x0 d ≠ 0 := by unfold knifeV; positivity
  have p1 : knifeV x h x.dl.x1 d ≠ 0 := by unfold knifeV; positivity
  refine Follows.bind (refine_aknfe hb (fun e => p0 (v0.symm.trans e)) (fun e => k0 (v0.symm.trans e))) (fun b1 s hs hb1 => ?_)
  refine Follows.bind (Follows.div (F := F) (q.mul d1) (ds.add d1)) (fun b2 s hs hb2 => ?_)
  obtain ⟨-, rfl⟩ := pyDiv_eq_ok.1 hs
  refine Follows.bind (refine_aknfe hb2 (fun e => p1 (v1.symm.trans e)) (fun e => k1 (v1.symm.trans e))) (fun b3 s hs hb3 => ?_)
  refine Follows.bind (Follows.div (F := F) ds th) (fun b4 s hs hb4 => ?_)
  obtain ⟨-, rfl⟩ := pyDiv_eq_ok.1 hs
  refine Follows.bind (Follows.pow (hb4.mul w) refine_third (by positivity)) (fun b5 s hs hb5 => ?_)
  refine Follows.bind (Follows.div (F := F) c1 hb5) (fun b6 s hs hb6 => ?_)
  refine Follows.bind (Follows.log (F := F) ?_) (fun b7 s hs hb7 => ?_)
  · appr
  refine Follows.bind (Follows.div (F := F) c3 hD) (fun b8 s hs hb8 => ?_)
  obtain ⟨-, rfl⟩ := pyDiv_eq_ok.1 hs
  have rq := refine_dhAt dh hD
  have pm : 0 < (c.wd1 + c.xd1 / d) * min (dhAt x.dh d * x.wn) 6283.2 :=
    mul_pos hw (lt_min (mul_pos (dhAt_pos pdh hd.le) hwn) (by norm_num))
  refine Follows.bind (Follows.sqrt (F := F) ((c2.add hb8).mul ((rq.mul w).pyMin (Refining.Approx.lit _ _ _))) ?_) (fun b9 s hs hb9 => ?_)
  · rw [pyMin_real]; exact pm.ne'
  refine Follows.bind (Follows.div (F := F) (Refining.Approx.lit _ _ _) ((Refining.Approx.lit _ _ _).add hb9)) (fun b10 s hs hb10 => ?_)
  refine Follows.ok ?_
  appr

/-- Approximation of the diffraction line. -/
structure LinApx (F : Refining l α ε) (L : ∀ i, DiffLine (α i)) (y : DiffLine ℝ) : Prop where
  xae : F.Approx (fun i => (L i).xae) y.xae
  emd : F.Approx (fun i => (L i).emd) y.emd
  aed : F.Approx (fun i => (L i).aed) y.aed
  wis : F.Approx (fun i => (L i).wis) y.wis

/-- No knife edge at the distances of the diffraction line is at the threshold. -/
structure EdgeClear (x : LrIn ℝ) (h : Horizon ℝ) : Prop where
  e30 : knifeV x h x.dl.x0 (d3R x h) ≠ 5.76
  e31 : knifeV x h x.dl.x1 (d3R x h) ≠ 5.76
  e40 : knifeV x h x.dl.x0 (d4R x h) ≠ 5.76
  e41 : knifeV x h x.dl.x1 (d4R x h) ≠ 5.76

theorem refine_line {I : ∀ i, LrIn (α i)} {x : LrIn ℝ} {H : ∀ i, Horizon (α i)} {C : ∀ i, DiffC (α i)} {c : DiffC ℝ} {mdp : Int}
    (hi : InApx F I x) (hh : HorApx F H (horR x)) (hc : DifApx F C c) (a : Adm x) (pdh : 0 < x.dh) (hw : 0 < c.wd1) (hx : 0 ≤ c.xd1)
    (k : EdgeClear x (horR x)) : Follows l (LinApx F) (fun i => lineC mdp (I i) (H i) (C i)) (lineC mdp x (horR x) c) := by
  have hx3 := d3R_gt a (horR x)
  have hx4 := d4R_gt a (horR x)
  have hp := horR_dla_pos a
  have t3 := tha_pos a hx3
  have t4 := tha_pos a (hx3.trans hx4)
  unfold lineC lrLineWith
  have p0 : x.wn * npow x.gme 2 ≠ 0 := by rw [npow_real]; have := a.wn; have := a.gme; positivity
  refine Follows.bind (Follows.pow (F := F) (hi.wn.mul (hi.gme.npow 2)) refine_third.neg p0) (fun b s hs hb => ?_)
  obtain ⟨-, -, rfl⟩ := pyPow_eq_ok.1 hs
  have ex : (x.wn * npow x.gme 2) ^ (-third : ℝ) = xaeR x := by rw [npow_real]; rfl
  rw [ex] at hb ⊢
  have r3 : F.Approx (fun i => pyMax (H i).dlsa (1.3787 * b i + (H i).dla)) (pyMax (horR x).dlsa (1.3787 * xaeR x + (horR x).dla)) :=
    hh.dlsa.pyMax (((Refining.Approx.lit _ _ _).mul hb).add hh.dla)
  have r4 := r3.add ((Refining.Approx.lit 27574 true 4).mul hb)
  have q3 : pyMax (horR x).dlsa (1.3787 * xaeR x + (horR x).dla) = d3R x (horR x) := by rw [pyMax_real]; rfl
  rw [q3] at r3 r4 ⊢
  have q4 : d3R x (horR x) + 2.7574 * xaeR x = d4R x (horR x) := rfl
  have r4' : F.Approx _ (d4R x (horR x)) := r4
  have w3 : 0 < c.wd1 + c.xd1 / d3R x (horR x) := by have : 0 < d3R x (horR x) := hp.trans hx3; positivity
  have w4 : 0 < c.wd1 + c.xd1 / d4R x (horR x) := by have : 0 < d4R x (horR x) := hp.trans (hx3.trans hx4); positivity
  dsimp only
  rw [q4]
  refine Follows.bind (refine_adiff hi hh hc r3 a pdh (hp.trans hx3) hx3 t3 w3 k.e30 k.e31) (fun a3 s hs ha3 => ?_)
  refine Follows.bind (refine_adiff hi hh hc r4' a pdh (hp.trans (hx3.trans hx4)) (hx3.trans hx4) t4 w4 k.e40 k.e41) (fun a4 s hs ha4 => ?_)
  refine Follows.bind (Follows.div (F := F) (ha4.sub ha3) (r4'.sub r3)) (fun b1 s hs hb1 => ?_)
  have nz : pyMax (10e3 : ℝ) (horR x).dlsa ≠ 0 := by
    rw [pyMax_real]; exact ne_of_gt (lt_of_lt_of_le (by norm_num) (le_max_left _ _))
  have rw' : F.Approx (fun i => (I i).wn * (I i).dh / pyMax 10e3 (H i).dlsa) (x.wn * x.dh / pyMax 10e3 (horR x).dlsa) :=
    (hi.wn.mul hi.dh).div ((Refining.Approx.lit _ _ _).pyMax hh.dlsa) nz
  refine Follows.bind (Follows.div (F := F) (Refining.Approx.lit _ _ _) ((Refining.Approx.lit _ _ _).add rw')) (fun b2 s hs hb2 => ?_)
  exact Follows.pure ⟨hb, hb1, ha3.sub (hb1.mul r3), hb2⟩

/-- Approximation of the set-up. -/
structure SetApx (F : Refining l α ε) (S : ∀ i, Setup (α i)) (s : Setup ℝ) : Prop where
  h : HorApx F (fun i => (S i).h) s.h
  l : LinApx F (fun i => (S i).l) s.l

theorem refine_setup {I : ∀ i, LrIn (α i)} {x : LrIn ℝ} {mdp : Int} (hi : InApx F I x) (a : Adm x) (pdh : 0 < x.dh) (c : TermClear x)
    (k : EdgeClear x (horR x)) : Follows l (SetApx F) (fun i => setupC mdp (I i)) (setupC mdp x) := by
  unfold setupC
  have hx := xd1_nonneg a
  have pd := horR_dlsa_pos a
  refine Follows.bind (refine_hor hi a) (fun H h hs hh => ?_)
  rw [horC_ok a.he0.le a.he1.le a.gme, ok_inj] at hs
  subst hs
  refine Follows.bind (refine_diff hi hh a pdh pd c) (fun C cc hs hc => ?_)
  have a3 := a.he0; have a4 := a.he1; have a1 := a.hg0; have a2 := a.hg1
  have w1 : 0 < cc.wd1 ∧ cc.xd1 = (horR x).dla + (horR x).tha / x.gme := by
    obtain ⟨f0, f1, -, -, e⟩ := diffC_ok (mdp := mdp) a pd.le
    rw [e, ok_inj] at hs
    subst hs
    refine ⟨Real.sqrt_pos.2 ?_, rfl⟩
    have hq : 0 < hgq mdp x := by unfold hgq; split_ifs <;> positivity
    rw [show (1.0 : ℝ) = 1 by norm_num, ← div_self hq.ne', ← add_div]
    refine div_pos ?_ hq
    have : x.hg.x0 * x.hg.x1 ≤ hgq mdp x := by unfold hgq; split_ifs <;> norm_num
    nlinarith [mul_pos a3 a4]
  refine Follows.bind (refine_line hi hh hc a pdh w1.1 (by rw [w1.2]; exact hx) k) (fun L ll hs hl => ?_)
  exact Follows.pure ⟨hh, hl⟩

end Itm
