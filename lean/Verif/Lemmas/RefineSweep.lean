import Verif.Lemmas.RefineRun
import Verif.Lemmas.RefineVar
import Verif.Lemmas.AvarFrame

/-! A sweep of `lrprop` calls, with the statistics in between, in arithmetics of growing precision. -/

namespace Itm
open Itm.Spec Filter Asymptotics Topology

variable {ι : Type} {l : Filter ι} {α : ι → Type} [∀ i, PyNum (α i)] {ε : ι → ℝ} {F : Refining l α ε}

/-- Approximation of the lazily computed keys; the exact scatter line meets the exact diffraction line, unless it is left over from
an earlier link. -/
structure CacheApx (F : Refining l α ε) (y : DiffLine ℝ) (C : ∀ i, LrCache (α i)) (c : LrCache ℝ) : Prop where
  wlos : ∀ᶠ i in l, (C i).wlos = c.wlos
  wscat : ∀ᶠ i in l, (C i).wscat = c.wscat
  unset : c.wscat = false → F.Approx (fun i => (C i).ascat1) 0 ∧ c.ascat1 = 0
  scat : OptApx l (fun K k => ScaApx F K k ∧ (c.wscat = true → k.aes + k.ems * k.dx = y.aed + y.emd * k.dx)) (fun i => (C i).scat) c.scat
  aref : OptApx l F.Approx (fun i => (C i).aref) c.aref

theorem refine_runC {p : PropSt ℝ} {s : Setup ℝ} (hs : setupC p.mdp (inp p) = .ok s) {I : ∀ i, LrIn (α i)} (hi : InApx F I (inp p)) (a : Adm (inp p))
    (pdh : 0 < p.dh) {S : ∀ i, Setup (α i)} (hS : SetApx F S s) {D : ∀ i, α i} {d : ℝ} (hD : F.Approx D d) (pd : 0 < d) (hne : d ≠ (linkOf p).dlsa)
    (c1 : d < (linkOf p).dlsa → (linkOf p).SightClear) (c2 : (linkOf p).dlsa < d → (linkOf p).ScatterClear)
    {C : ∀ i, LrCache (α i)} {k : LrCache ℝ} (hC : CacheApx F s.l C k) :
    Follows l (CacheApx F s.l) (fun i => runC (I i) (S i).h (S i).l (D i) (C i)) (runC (inp p) s.h s.l d k) := by
  obtain ⟨_, ⟨e1, e2, _⟩, _⟩ := Props.line_spec hs
  have hne' : d ≠ s.h.dlsa := by rw [e1]; exact hne
  have lt := hD.lt_iff hS.h.dlsa hne'
  have le := hS.h.dlsa.le_iff hD hne'.symm
  have p0 := (Follows.zero (F := F)).lt_iff hD pd.ne
  have n0 := hD.le_iff (Follows.zero (F := F)) pd.ne'
  unfold runC
  have clamp : ∀ {C : ∀ i, LrCache (α i)} {k : LrCache ℝ}, CacheApx F s.l C k → Follows l (CacheApx F s.l) (fun i => clampStage (C i)) (clampStage k) := by
    intro C k h
    unfold clampStage
    refine Follows.bind (Follows.need h.aref _) (fun A a _ ha => ?_)
    exact Follows.pure ⟨h.wlos, h.wscat, h.unset, h.scat, OptApx.some (ha.pyMax (Refining.Approx.lit _ _ _))⟩
  have los : Follows l (CacheApx F s.l) (fun i => losStage (I i) (S i).h (S i).l (D i) (C i)) (losStage (inp p) s.h s.l d k) := by
    unfold losStage
    refine Follows.ite lt (fun q => ?_) (fun _ => Follows.pure hC)
    refine Follows.ite (by filter_upwards [hC.wlos] with i hi; rw [hi]) (fun _ => ?_) (fun _ => Follows.pure hC)
    refine Follows.bind (refine_los hs hi a pdh hS (c1 (by rwa [e1] at q))) (fun K j _ hK => ?_)
    refine Follows.ite (by rw [zero_lit]; exact p0) (fun _ => ?_) (fun c => absurd pd (by rwa [zero_lit] at c))
    refine Follows.bind ?_ (fun A b _ hA => Follows.pure ⟨Eventually.of_forall fun _ => rfl, hC.wscat, hC.unset, hC.scat, OptApx.some hA⟩)
    unfold losAref
    refine Follows.bind (Follows.log hD) (fun G g _ hG => Follows.pure ?_)
    exact (hK.ael.add (hK.ak1.mul hD)).add (hK.ak2.mul hG)
  refine Follows.bind los (fun C k _ hC => ?_)
  refine Follows.bind ?_ (fun C k _ hC => clamp hC)
  unfold scatStage
  refine Follows.ite (ev_or (by rw [zero_lit]; exact n0) le) (fun q => ?_) (fun _ => Follows.pure hC)
  have q' : (linkOf p).dlsa < d := by
    rcases q with q | q
    · rw [zero_lit] at q; exact absurd q (not_le.2 pd)
    · rw [e1] at q; exact lt_of_le_of_ne q hne.symm
  have set : Follows l (fun C k => CacheApx F s.l C k ∧ k.wscat = true) (fun i => scatSetupStage (I i) (S i).h (S i).l (C i)) (scatSetupStage (inp p) s.h s.l k) := by
    unfold scatSetupStage
    refine Follows.ite (by filter_upwards [hC.wscat] with i hi; rw [hi]) (fun w => ?_) (fun w => Follows.pure ⟨hC, by simpa using w⟩)
    obtain ⟨w1, w2⟩ := hC.unset w
    rw [w2]
    refine Follows.bind (refine_scat hs hi a hS w1 (c2 q')) (fun R r hr hR => Follows.pure ?_)
    exact ⟨⟨hC.wlos, Eventually.of_forall fun _ => rfl, fun c => absurd c (by simp), OptApx.some ⟨hR, fun _ => scat_meets hr⟩, hC.aref⟩, rfl⟩
  refine Follows.bind set (fun C k _ hC' => ?_)
  obtain ⟨hC, hw⟩ := hC'
  refine Follows.bind (Follows.need hC.scat _) (fun K j _ hK => Follows.pure ?_)
  refine ⟨hC.wlos, hC.wscat, hC.unset, hC.scat, OptApx.some (refine_far hS.l hK.1 hD ?_)⟩
  intro e
  rw [← e]
  exact hK.2 hw

theorem OptApx.congr {β : ι → Type} {γ : Type} {Q : (∀ i, β i) → γ → Prop} {A B : ∀ i, Option (β i)} {a : Option γ} (h : OptApx l Q A a)
    (e : ∀ᶠ i in l, A i = B i) : OptApx l Q B a := by
  intro x hx
  obtain ⟨b, hb, q⟩ := h x hx
  exact ⟨b, by filter_upwards [hb, e] with i h1 h2; rw [← h2, h1], q⟩

theorem CacheApx.congr {y : DiffLine ℝ} {C C' : ∀ i, LrCache (α i)} {c : LrCache ℝ} (h : CacheApx F y C c) (e : ∀ᶠ i in l, C i = C' i) : CacheApx F y C' c := by
  refine ⟨?_, ?_, fun u => ⟨(h.unset u).1.congr ?_, (h.unset u).2⟩, h.scat.congr ?_, h.aref.congr ?_⟩
  · filter_upwards [h.wlos, e] with i h1 h2; rw [← h2, h1]
  · filter_upwards [h.wscat, e] with i h1 h2; rw [← h2, h1]
  all_goals (filter_upwards [e] with i h2; rw [h2])

theorem InApx.congr {I J : ∀ i, LrIn (α i)} {j : LrIn ℝ} (h : InApx F I j) (e : ∀ᶠ i in l, I i = J i) : InApx F J j := by
  have E : ∀ (f : ∀ {β : Type}, LrIn β → β), ∀ᶠ i in l, f (I i) = f (J i) := fun f => by filter_upwards [e] with i hi; rw [hi]
  exact ⟨h.hg0.congr (E (·.hg.x0)), h.hg1.congr (E (·.hg.x1)), h.he0.congr (E (·.he.x0)), h.he1.congr (E (·.he.x1)), h.dl0.congr (E (·.dl.x0)),
    h.dl1.congr (E (·.dl.x1)), h.the0.congr (E (·.the.x0)), h.the1.congr (E (·.the.x1)), h.wn.congr (E (·.wn)), h.dh.congr (E (·.dh)),
    h.ens.congr (E (·.ens)), h.gme.congr (E (·.gme)), h.zre.congr (E (·.zgnd.re)), h.zim.congr (E (·.zgnd.im))⟩

/-- `avar` writes its own keys only. -/
theorem avar_frame {β : Type} [PyNum β] {p : PropSt β} {r : β × PropSt β} {zt zl zc : β} (h : avar zt zl zc p = .ok r) : AvarFrame p r.2 := by
  obtain ⟨a, r⟩ := r
  obtain ⟨q, m, c, v, ar, h1, -, -, -, -, rfl, -⟩ := avar_ok h
  exact (avarSetup_ok h1).1.trans ⟨q.klim, _, q.lvar, q.clim, q.vmode, q.fgain, q.dexa, q.varc, rfl⟩

/-! ### Dictionaries -/

/-- The statistical keys before a distance is set. -/
def StatPre (F : Refining l α ε) (P : ∀ i, PropSt (α i)) (p : PropSt ℝ) : Prop :=
  ∀ (D : ∀ i, α i) (d : ℝ), F.Approx D d → 0 < d → StatApx F (fun i => { P i with dist := D i }) { p with dist := d }

/-- A sweep about to start. -/
structure StartApx (F : Refining l α ε) (P : ∀ i, PropSt (α i)) (p : PropSt ℝ) : Prop where
  mdp : 0 < p.mdp ∧ ∀ᶠ i in l, (P i).mdp = p.mdp
  inp : InApx F (fun i => inp (P i)) (inp p)
  fresh : p.scat = none ∧ p.aref = none
  stat : StatPre F P p
  knee : p.lvar ≤ 0 → Kneed p

/-- Between two turns of a sweep that started from the inputs `j`, with mode marker `m`. -/
structure SweepApx (F : Refining l α ε) (m : Int) (j : LrIn ℝ) (Q : ∀ i, PropSt (α i)) (q : PropSt ℝ) : Prop where
  mdp : q.mdp = 0 ∧ ∀ᶠ i in l, (Q i).mdp = 0
  same : inp q = j
  inp : InApx F (fun i => inp (Q i)) j
  lr : ∃ s S, setupC m j = .ok s ∧ SetApx F S s ∧ q.hor = some s.h ∧ q.line = some s.l ∧
    (∀ᶠ i in l, (Q i).hor = some (S i).h ∧ (Q i).line = some (S i).l) ∧ CacheApx F s.l (fun i => cacheOf (Q i)) (cacheOf q)
  stat : StatApx F Q q
  knee : q.lvar ≤ 0 → Kneed q

/-- First call. -/
theorem refine_first {P : ∀ i, PropSt (α i)} {p : PropSt ℝ} (h : StartApx F P p)
    (a : Adm (inp p)) (pdh : 0 < p.dh) {D : ∀ i, α i} {d : ℝ} (hD : F.Approx D d) (pd : 0 < d) (c : (linkOf p).Clear d) :
    Follows l (fun Q q => SweepApx F p.mdp (inp p) Q q ∧ q.dist = d) (fun i => lrprop (D i) (P i)) (lrprop d p) := by
  have hm := h.mdp.1
  rw [lrprop_setup hm.ne']
  have dd : distOf p d = d := by unfold distOf; rw [if_pos hm.le]
  have dm : mdpOf p = 0 := by unfold mdpOf; rw [if_pos hm.le]
  rw [dd, dm]
  have key : Follows l (fun Q q => SweepApx F p.mdp (inp p) Q q ∧ q.dist = d) (fun i => (do
      let s ← setupC p.mdp (inp (P i))
      let c ← runC (inp (P i)) s.h s.l (D i) { cacheOf (P i) with wlos := false, wscat := false, ascat1 := 0.0 }
      pure (setCache { withSetup (P i) s with dist := D i, mdp := 0, kwx := distKwxC s.l (D i) (lrKwx (P i) s.h) } c) : Py (PropSt (α i)))) (do
      let s ← setupC p.mdp (inp p)
      let c ← runC (inp p) s.h s.l d { cacheOf p with wlos := false, wscat := false, ascat1 := 0.0 }
      pure (setCache { withSetup p s with dist := d, mdp := 0, kwx := distKwxC s.l d (lrKwx p s.h) } c)) := by
    refine Follows.bind (refine_setup (mdp := p.mdp) h.inp a pdh (link_terms a c.diff) (link_edges c.diff)) (fun S s hs hS => ?_)
    have h0 : CacheApx F s.l (fun i => { cacheOf (P i) with wlos := false, wscat := false, ascat1 := 0.0 })
        { cacheOf p with wlos := false, wscat := false, ascat1 := 0.0 } := by
      refine ⟨Eventually.of_forall fun _ => rfl, Eventually.of_forall fun _ => rfl, fun _ => ⟨Follows.zero, zero_lit⟩, ?_, ?_⟩
      · show OptApx l _ _ p.scat
        rw [h.fresh.1]; exact OptApx.none
      · show OptApx l _ _ p.aref
        rw [h.fresh.2]; exact OptApx.none
    refine Follows.bind (refine_runC hs h.inp a pdh hS hD pd c.horizon c.sight c.scatter h0) (fun C k hk hC => Follows.pure ?_)
    have st := h.stat D d hD pd
    refine ⟨⟨⟨rfl, Eventually.of_forall fun _ => rfl⟩, rfl, h.inp, ⟨s, S, hs, hS, rfl, rfl, Eventually.of_forall fun _ => ⟨rfl, rfl⟩, hC⟩, ?_, h.knee⟩, rfl⟩
    exact ⟨st.lvar, st.klim, st.mdvar, st.clim, st.vmode, st.fgain, st.dexa, st.varc, hC.aref, st.dist, st.dh, st.wn, st.he0, st.he1, st.pos⟩
  refine key.congr ?_
  filter_upwards [h.mdp.2] with i hi
  have hm' : 0 < (P i).mdp := by rw [hi]; exact hm
  rw [lrprop_setup hm'.ne']
  have dd : distOf (P i) (D i) = D i := by unfold distOf; rw [if_pos hm'.le]
  have dm : mdpOf (P i) = 0 := by unfold mdpOf; rw [if_pos hm'.le]
  rw [dd, dm, hi]

/-- Later calls. -/
theorem refine_next {p : PropSt ℝ} {Q : ∀ i, PropSt (α i)} {q : PropSt ℝ} (h : SweepApx F p.mdp (inp p) Q q)
    (a : Adm (inp p)) (pdh : 0 < p.dh) {D : ∀ i, α i} {d : ℝ} (hD : F.Approx D d) (pd : 0 < d) (c : (linkOf p).Clear d) :
    Follows l (fun Q q => SweepApx F p.mdp (inp p) Q q ∧ q.dist = d) (fun i => lrprop (D i) (Q i)) (lrprop d q) := by
  obtain ⟨s, S, hs, hS, q1, q2, Q12, hC⟩ := h.lr
  rw [lrprop_cont h.mdp.1 q1 q2, h.same]
  have key : Follows l (fun Q q => SweepApx F p.mdp (inp p) Q q ∧ q.dist = d) (fun i => (do
      let c ← runC (inp (Q i)) (S i).h (S i).l (D i) (cacheOf (Q i))
      pure (setCache { Q i with dist := D i, mdp := 0, kwx := distKwxC (S i).l (D i) (Q i).kwx } c) : Py (PropSt (α i)))) (do
      let c ← runC (inp p) s.h s.l d (cacheOf q)
      pure (setCache { q with dist := d, mdp := 0, kwx := distKwxC s.l d q.kwx } c)) := by
    refine Follows.bind (refine_runC hs h.inp a pdh hS hD pd c.horizon c.sight c.scatter hC) (fun C k hk hC => Follows.pure ?_)
    have st := h.stat
    refine ⟨⟨⟨rfl, Eventually.of_forall fun _ => rfl⟩, h.same, h.inp, ⟨s, S, hs, hS, q1, q2, Q12, hC⟩, ?_, h.knee⟩, rfl⟩
    exact ⟨st.lvar, st.klim, st.mdvar, st.clim, st.vmode, st.fgain, st.dexa, st.varc, hC.aref, hD, st.dh, st.wn, st.he0, st.he1, pd, st.pos.2⟩
  refine key.congr ?_
  filter_upwards [h.mdp.2, Q12] with i hi hl
  rw [lrprop_cont hi hl.1 hl.2]

/-- A quantile in between. -/
theorem refine_sweep_avar {m : Int} {j : LrIn ℝ} {Q : ∀ i, PropSt (α i)} {q : PropSt ℝ} (h : SweepApx F m j Q q) {X Y Z : ∀ i, α i} {x y z : ℝ}
    (hx : F.Approx X x) (hy : F.Approx Y y) (hz : F.Approx Z z) :
    Follows l (fun b r => F.Approx (fun i => (b i).1) r.1 ∧ SweepApx F m j (fun i => (b i).2) r.2 ∧ r.2.dist = q.dist) (fun i => avar (X i) (Y i) (Z i) (Q i)) (avar x y z q) := by
  intro r hr
  obtain ⟨b, hb, h1, h2, h3⟩ := refine_avar h.stat h.knee hx hy hz r hr
  obtain ⟨a, r⟩ := r
  refine ⟨b, hb, h1, ?_, ?_⟩
  · have fr : ∀ᶠ i in l, AvarFrame (Q i) (b i).2 := by
      filter_upwards [hb] with i hi
      exact avar_frame hi
    obtain ⟨s, S, hs, hS, q1, q2, Q12, hC⟩ := h.lr
    have fq : AvarFrame q r := avar_frame hr
    have hinp : inp r = inp q := by obtain ⟨_, _, _, _, _, _, _, _, e⟩ := fq; rw [e]; rfl
    have hcache : cacheOf r = cacheOf q := by obtain ⟨_, _, _, _, _, _, _, _, e⟩ := fq; rw [e]; rfl
    have Finp : ∀ᶠ i in l, inp (Q i) = inp (b i).2 := by
      filter_upwards [fr] with i hi
      obtain ⟨_, _, _, _, _, _, _, _, e⟩ := hi; rw [e]; rfl
    have Fcache : ∀ᶠ i in l, cacheOf (Q i) = cacheOf (b i).2 := by
      filter_upwards [fr] with i hi
      obtain ⟨_, _, _, _, _, _, _, _, e⟩ := hi; rw [e]; rfl
    refine ⟨⟨?_, ?_⟩, hinp.trans h.same, h.inp.congr Finp, ⟨s, S, hs, hS, ?_, ?_, ?_, ?_⟩, h2, fun _ => h3⟩
    · obtain ⟨_, _, _, _, _, _, _, _, e⟩ := fq; rw [e]; exact h.mdp.1
    · filter_upwards [fr, h.mdp.2] with i hi hm
      obtain ⟨_, _, _, _, _, _, _, _, e⟩ := hi; rw [e]; exact hm
    · obtain ⟨_, _, _, _, _, _, _, _, e⟩ := fq; rw [e]; exact q1
    · obtain ⟨_, _, _, _, _, _, _, _, e⟩ := fq; rw [e]; exact q2
    · filter_upwards [fr, Q12] with i hi hm
      obtain ⟨_, _, _, _, _, _, _, _, e⟩ := hi; rw [e]; exact hm
    · rw [hcache]; exact hC.congr Fcache
  · obtain ⟨_, _, _, _, _, _, _, _, e⟩ := avar_frame hr; rw [e]

/-- Raising the level of change. -/
theorem SweepApx.raise {m : Int} {j : LrIn ℝ} {Q : ∀ i, PropSt (α i)} {q : PropSt ℝ} (h : SweepApx F m j Q q) :
    SweepApx F m j (fun i => { Q i with lvar := max 1 (Q i).lvar }) { q with lvar := max 1 q.lvar } := by
  have st := h.stat
  refine ⟨h.mdp, h.same, h.inp, h.lr, ?_, fun c => absurd c (by simp only; omega)⟩
  refine ⟨?_, st.klim, st.mdvar, st.clim, st.vmode, st.fgain, st.dexa, st.varc, st.aref, st.dist, st.dh, st.wn, st.he0, st.he1, st.pos⟩
  filter_upwards [st.lvar] with i hi
  simp only [hi]

end Itm
