import Verif.Lemmas.RefineP2P
import Verif.Lemmas.Pimter
import Verif.Spec.PimterClear

/-! `run_itmlogic` of `scripts/pimter.py` in arithmetics of growing precision. -/

namespace Itm
open Itm.Spec Itm.Props Filter Asymptotics Topology

variable {ι : Type} {l : Filter ι} {α : ι → Type} [∀ i, PyNum (α i)] {ε : ι → ℝ} {F : Refining l α ε}

/-- Between two heights. -/
structure CampApx (F : Refining l α ε) (S : ∀ i, PropSt (α i)) (s : PropSt ℝ) : Prop where
  pfl : PflApx F (fun i => (S i).pfl) s.pfl
  hg0 : F.Approx (fun i => (S i).hg.x0) s.hg.x0
  gme : F.Approx (fun i => (S i).gme) s.gme
  d : F.Approx (fun i => (S i).d) s.d
  wn : F.Approx (fun i => (S i).wn) s.wn
  ens : F.Approx (fun i => (S i).ens) s.ens
  z : CxApx F (fun i => (S i).zgnd) s.zgnd
  fmhz : F.Approx (fun i => (S i).fmhz) s.fmhz
  klim : OptApx l (EqApx l) (fun i => (S i).klim) s.klim
  carry : CarryApx F S s

theorem refine_pimterGround (F : Refining l α ε) : Follows l (CxApx F) (fun i => (pimterGround : Py (Cx (α i)))) pimterGround := by
  unfold pimterGround groundZq
  simp only [bind_assoc, pure_bind]
  have hw : F.Approx (fun i => (2.488 * 1000.0 / 47.7 : α i)) (2.488 * 1000.0 / 47.7) :=
    ((Refining.Approx.lit _ _ _).mul (Refining.Approx.lit _ _ _)).div (Refining.Approx.lit _ _ _) (by norm_num)
  refine Follows.bind (Follows.div ((Refining.Approx.lit _ _ _).mul (Refining.Approx.lit _ _ _)) hw) (fun Y y hy hY => ?_)
  have py : 0 < y := by
    rw [(pyDiv_eq_ok.1 hy).2]; norm_num
  have hq : CxApx F (fun i => (⟨15.0, Y i⟩ : Cx (α i))) ⟨15.0, y⟩ := ⟨Refining.Approx.lit _ _ _, hY⟩
  have hs : CxApx F (fun i => Cx.sqrt (Cx.sub ⟨15.0, Y i⟩ ⟨1.0, 0.0⟩ : Cx (α i))) (Cx.sqrt (Cx.sub ⟨15.0, y⟩ ⟨1.0, 0.0⟩)) :=
    (hq.sub ⟨Refining.Approx.lit _ _ _, Refining.Approx.lit _ _ _⟩).sqrt (by simp only [Cx.sub]; norm_num) (by simp only [Cx.sub]; norm_num; exact py)
  exact hs.div hq

theorem refine_pimterSetup {P : ∀ i, PropSt (α i)} {p : PropSt ℝ} (u : Untouched p) {T D : ∀ i, List (α i)} {t d : List ℝ} (hT : SeqApx F T t) (hD : SeqApx F D d) :
    Follows l (CampApx F) (fun i => pimterSetup (P i) (T i) (D i)) (pimterSetup p t d) := by
  simp only [pimterSetup_eq]
  refine Follows.bind (refine_pyGet hD.len hD.get 1) (fun A a _ hA => ?_)
  refine Follows.bind (refine_pyGet hD.len hD.get 0) (fun B b _ hB => ?_)
  refine Follows.bind (refine_pyGet hD.len hD.get (-1)) (fun C c _ hC => ?_)
  refine Follows.bind (refine_pimterGround F) (fun Z z _ hZ => Follows.pure ?_)
  have hf : F.Approx (fun i => (2.488 * 1000.0 : α i)) (2.488 * 1000.0) := (Refining.Approx.lit _ _ _).mul (Refining.Approx.lit _ _ _)
  refine ⟨⟨?_, hT.len, hA.sub hB, hT.get⟩, Refining.Approx.lit _ _ _, ?_, hC.div (Refining.Approx.lit _ _ _) (by norm_num),
    hf.div (Refining.Approx.lit _ _ _) (by norm_num), Refining.Approx.lit _ _ _, hZ, hf,
    OptApx.some (b := fun _ => (5 : Int)) (Eventually.of_forall fun _ => rfl), untouched_carry (by exact u) _⟩
  · filter_upwards [hD.len] with i hi
    simp only [hi]
  unfold effCurvature
  exact (Refining.Approx.lit _ _ _).mul ((Refining.Approx.lit _ _ _).sub ((Refining.Approx.lit _ _ _).mul
    (Refining.Approx.exp ((Refining.Approx.lit _ _ _).div (Refining.Approx.lit _ _ _) (by norm_num)))))

/-- Rows with the same label, whose entries approximate. -/
structure CampRowApx (F : Refining l α ε) (R : ∀ i, PimterRow (α i)) (r : PimterRow ℝ) : Prop where
  fmhz : F.Approx (fun i => (R i).fmhz) r.fmhz
  hg : F.Approx (fun i => (R i).hg) r.hg
  reliability : ∀ᶠ i in l, (R i).reliability = r.reliability
  loss : F.Approx (fun i => (R i).loss) r.loss

/-- The dictionary at the start of a turn. -/
def atHeight {β : Type} [PyNum β] (h : β) (p : PropSt β) : PropSt β := { p with hg := ⟨p.hg.x0, h⟩, lvar := 5, kwx := 0, klimx := 0, mdvarx := 11 }

/-- A turn meets no threshold. -/
structure TurnClear (n : ℕ) (h : ℝ) (s : PropSt ℝ) : Prop where
  pos : 0 < h
  clear : ∀ q, qlrpflPrep (atHeight h s) = .ok q →
    (pathOf (atHeight h s) n).Generic (s.pfl.z.getD (n - 1) 0) q.dh ∧ 0 < q.dh ∧ (linkOf q).Clear q.dist

theorem refine_pimterTurn {S : ∀ i, PropSt (α i)} {s : PropSt ℝ} (h : CampApx F S s) {n : ℕ} (hn : 1 ≤ n) (hnp : s.pfl.np = n)
    (hx : 0 < s.pfl.xi) (hl : n < s.pfl.z.length) (hg0 : 0 < s.hg.x0) (hκ : 0 < s.gme) (pw : 0 < s.wn) (pz : 0 < s.zgnd.re) (qr : Int)
    {X Z H : ∀ i, α i} {x z y : ℝ} (aX : F.Approx X x) (aZ : F.Approx Z z) (aH : F.Approx H y) (c : TurnClear n y s) :
    Follows l (fun b r => CampRowApx F (fun i => (b i).1) r.1 ∧ CampApx F (fun i => (b i).2) r.2)
      (fun i => pimterTurn qr (X i) (Z i) (H i) (S i)) (pimterTurn qr x z y s) := by
  intro r hr
  have hr' := hr
  unfold pimterTurn at hr'
  obtain ⟨q, hq, -⟩ := bind_eq_ok.1 hr'
  unfold qlrpfl at hq
  obtain ⟨b, hb, -⟩ := bind_eq_ok.1 hq
  obtain ⟨g, pdh, cl⟩ := c.clear b hb
  have ready : ReadyApx F (fun i => atHeight (H i) (S i)) (atHeight y s) :=
    ⟨⟨h.pfl, ⟨h.hg0, aH⟩, h.gme⟩, h.d, h.wn, h.ens, h.z, h.klim, rfl, rfl, rfl, fun _ => ⟨rfl, rfl, rfl⟩⟩
  have carry : CarryApx F (fun i => atHeight (H i) (S i)) (atHeight y s) :=
    ⟨h.carry.scat, h.carry.aref, h.carry.clim, h.carry.vmode, h.carry.fgain, h.carry.dexa, h.carry.varc⟩
  have done := refine_qlrpfl ready carry hn hnp hx hl hg0 c.pos hκ pw pz hb g pdh cl
  have key : Follows l (fun b r => F.Approx (fun i => (b i).1.loss) r.1.loss ∧ (∀ᶠ i in l, (b i).1.reliability = r.1.reliability) ∧ F.Approx (fun i => (b i).1.hg) r.1.hg ∧
      StatApx F (fun i => (b i).2) r.2 ∧ OptApx l (ScaApx F) (fun i => (b i).2.scat) r.2.scat ∧ F.Approx (fun i => (b i).2.d) r.2.d ∧
      (∀ i, (b i).1.fmhz = (b i).2.fmhz) ∧ r.1.fmhz = r.2.fmhz)
      (fun i => pimterTurn qr (X i) (Z i) (H i) (S i)) (pimterTurn qr x z y s) := by
    unfold pimterTurn
    refine Follows.bind done (fun Q q _ hQ => ?_)
    refine Follows.bind (refine_freeSpace hQ.stat.wn hQ.stat.dist) (fun V v _ hV => ?_)
    have hv : Follows l (fun b r => F.Approx (fun i => (b i).1) r.1 ∧ StatApx F (fun i => (b i).2) r.2 ∧ OptApx l (ScaApx F) (fun i => (b i).2.scat) r.2.scat ∧
        F.Approx (fun i => (b i).2.d) r.2.d) (fun i => avar (X i) 0.0 (Z i) (Q i)) (avar x 0.0 z q) := by
      intro r hr
      obtain ⟨b, hb, h4, h5, -⟩ := refine_avar hQ.stat hQ.knee aX (Refining.Approx.lit _ _ _) aZ r hr
      have e1 : r.2.d = q.d := by obtain ⟨_, _, _, _, _, _, _, _, e⟩ := avar_frame hr; rw [e]
      have e2 : r.2.scat = q.scat := by obtain ⟨_, _, _, _, _, _, _, _, e⟩ := avar_frame hr; rw [e]
      refine ⟨b, hb, h4, h5, ?_, ?_⟩
      · rw [e2]
        refine hQ.scat.congr ?_
        filter_upwards [hb] with i hi
        obtain ⟨_, _, _, _, _, _, _, _, e⟩ := avar_frame hi; rw [e]
      · rw [e1]
        refine hQ.d.congr ?_
        filter_upwards [hb] with i hi
        obtain ⟨_, _, _, _, _, _, _, _, e⟩ := avar_frame hi; rw [e]
    refine Follows.bind hv (fun A a _ hA => ?_)
    exact Follows.pure ⟨hV.add hA.1, Eventually.of_forall fun _ => rfl, aH, hA.2.1, hA.2.2.1, hA.2.2.2, fun _ => rfl, rfl⟩
  obtain ⟨B, hB, k1, k2, k3, k4, k5, k6, k7, k8⟩ := key r hr
  obtain ⟨row, t⟩ := r
  have R := pimterTurn_frame hr
  have RB : ∀ᶠ i in l, PimterRel (S i) (B i).2 := by
    filter_upwards [hB] with i hi
    exact pimterTurn_frame (row := (B i).1) hi
  have f : F.Approx (fun i => (B i).2.fmhz) t.fmhz := by
    rw [← R.fmhz]; exact h.fmhz.congr (RB.mono fun i e => e.fmhz)
  refine ⟨B, hB, ⟨?_, k3, k2, k1⟩, ⟨?_, ?_, ?_, k6, ?_, ?_, ?_, f, k4.klim, ⟨k5, k4.aref, k4.clim, k4.vmode, k4.fgain, k4.dexa, k4.varc⟩⟩⟩
  · dsimp only at k8 ⊢
    rw [k8]; exact f.congr (Eventually.of_forall fun i => (k7 i).symm)
  · dsimp only
    rw [← R.pfl]
    refine ⟨?_, ?_, h.pfl.xi.congr (RB.mono fun i e => by rw [e.pfl]), fun j x hj => ?_⟩
    · filter_upwards [RB, h.pfl.np] with i e1 e2; rw [← e1.pfl, e2]
    · filter_upwards [RB, h.pfl.len] with i e1 e2; rw [← e1.pfl, e2]
    · obtain ⟨b, hb, ab⟩ := h.pfl.z j x hj
      refine ⟨b, ?_, ab⟩
      filter_upwards [RB, hb] with i e1 e2; rw [← e1.pfl, e2]
  · dsimp only; rw [← R.hg0]; exact h.hg0.congr (RB.mono fun i e => e.hg0)
  · dsimp only; rw [← R.gme]; exact h.gme.congr (RB.mono fun i e => e.gme)
  · dsimp only; rw [← R.wn]; exact h.wn.congr (RB.mono fun i e => e.wn)
  · dsimp only; rw [← R.ens]; exact h.ens.congr (RB.mono fun i e => e.ens)
  · dsimp only; rw [← R.zgnd]
    exact ⟨h.z.re.congr (RB.mono fun i e => by rw [e.zgnd]), h.z.im.congr (RB.mono fun i e => by rw [e.zgnd])⟩

theorem refine_pimterLoop {s0 : PropSt ℝ} {n : ℕ} (hn : 1 ≤ n) (hnp : s0.pfl.np = n)
    (hx : 0 < s0.pfl.xi) (hl : n < s0.pfl.z.length) (hg0 : 0 < s0.hg.x0) (hκ : 0 < s0.gme) (pw : 0 < s0.wn) (pz : 0 < s0.zgnd.re) (qr : Int)
    {X Z : ∀ i, α i} {x z : ℝ} (aX : F.Approx X x) (aZ : F.Approx Z z) {A : ∀ i, List (α i)} {a : List ℝ} (aA : ListApx l F.Approx A a)
    {S : ∀ i, PropSt (α i)} {s : PropSt ℝ} (h : CampApx F S s) (R : PimterRel s0 s) (c : ∀ y ∈ a, ∀ s, PimterRel s0 s → TurnClear n y s) :
    Follows l (ListApx l (CampRowApx F)) (fun i => pimterLoop qr (X i) (Z i) (A i) (S i)) (pimterLoop qr x z a s) := by
  induction a generalizing A S s with
  | nil =>
    refine Follows.congr (m := fun i => pimterLoop qr (X i) (Z i) [] (S i)) ?_ (by unfold ListApx at aA; filter_upwards [aA] with i hi; rw [hi])
    unfold pimterLoop
    exact Follows.pure ListApx.nil
  | cons y ys ih =>
    obtain ⟨b, B, h1, h2, h3⟩ := aA
    refine Follows.congr (m := fun i => pimterLoop qr (X i) (Z i) (b i :: B i) (S i)) ?_ (by filter_upwards [h1] with i hi; rw [hi])
    simp only [pimterLoop_cons]
    refine Follows.bind (refine_pimterTurn h hn (by rw [← R.pfl]; exact hnp) (by rw [← R.pfl]; exact hx) (by rw [← R.pfl]; exact hl) (by rw [← R.hg0]; exact hg0)
      (by rw [← R.gme]; exact hκ) (by rw [← R.wn]; exact pw) (by rw [← R.zgnd]; exact pz) qr aX aZ h2 (c y (by simp) s R)) (fun V v hv hV => ?_)
    obtain ⟨v1, v2⟩ := v
    refine Follows.bind (ih h3 hV.2 (R.trans (pimterTurn_frame hv)) (fun y hy => c y (by simp [hy]))) (fun W w _ hW => ?_)
    exact Follows.pure (ListApx.cons hV.1 hW)

end Itm
