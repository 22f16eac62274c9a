import Verif.Lemmas.RefineArea
import Verif.Lemmas.RefinePath
import Verif.Lemmas.P2P
import Verif.Lemmas.CxSqrt
import Verif.Props.C73
import Verif.Spec.P2PClear

/-! `itmlogic_p2p` in arithmetics of growing precision. -/

namespace Itm
open Itm.Spec Itm.Props Filter Asymptotics Topology

variable {ι : Type} {l : Filter ι} {α : ι → Type} [∀ i, PyNum (α i)] {ε : ι → ℝ} {F : Refining l α ε}

/-! ### Ground -/

theorem abs_gt {z : Cx ℝ} (hi : 0 < z.im) : 0 < z.abs + z.re ∧ 0 < z.abs - z.re := by
  have h : |z.re| < z.abs := by
    rw [cxabs_real, ← Real.sqrt_sq_eq_abs]
    apply Real.sqrt_lt_sqrt (sq_nonneg _)
    nlinarith
  have h1 := neg_abs_le z.re
  have h2 := le_abs_self z.re
  constructor <;> linarith

theorem CxApx.sqrt {Z : ∀ i, Cx (α i)} {z : Cx ℝ} (h : CxApx F Z z) (hr : 0 < z.re) (hi : 0 < z.im) : CxApx F (fun i => (Z i).sqrt) z.sqrt := by
  have l8 : F.Approx (fun i => (8.0 : α i)) 8.0 := Refining.Approx.lit _ _ _
  have l2 : F.Approx (fun i => (2.0 : α i)) 2.0 := Refining.Approx.lit _ _ _
  have a1 := h.re.abs.div l8 (by norm_num)
  have a2 := h.im.abs.div l8 (by norm_num)
  rw [rabs, abs_of_pos hr] at a1
  rw [rabs, abs_of_pos hi] at a2
  have ha : F.Approx (fun i => Cx.abs ⟨PyNum.abs (Z i).re / 8.0, PyNum.abs (Z i).im / 8.0⟩) (Cx.abs ⟨z.re / 8.0, z.im / 8.0⟩) :=
    CxApx.abs (z := ⟨z.re / 8.0, z.im / 8.0⟩) ⟨a1, a2⟩ (by unfold Cx.normSq; positivity)
  have p0 : 0 ≤ Cx.abs (⟨z.re / 8.0, z.im / 8.0⟩ : Cx ℝ) := by rw [cxabs_real]; exact Real.sqrt_nonneg _
  have p1 : 0 < z.re / 8.0 + Cx.abs ⟨z.re / 8.0, z.im / 8.0⟩ := by
    have : 0 < z.re / 8.0 := by positivity
    linarith
  have hs := l2.mul ((a1.add ha).sqrt p1)
  have hd := h.im.abs.div (l2.mul hs) (by rw [rsqrt]; have := Real.sqrt_pos.2 p1; positivity)
  have dec0 := (Follows.zero (F := F)).le_iff h.re hr.ne
  have dec1 := h.re.le_iff (Follows.zero (F := F)) hr.ne'
  have dec := h.im.lt_iff (Follows.zero (F := F)) hi.ne'
  have e := cxsqrt_right (z := z) (fun k => absurd (pyEq_real.1 k.1) (by rw [zero_lit]; exact hr.ne')) (by rw [zero_lit]; exact hr.le) (by rw [zero_lit]; exact not_lt.2 hi.le)
  rw [rabs, rabs, abs_of_pos hr, abs_of_pos hi] at e
  rw [rabs, abs_of_pos hi] at hd
  rw [e]
  have d3 : ∀ᶠ i in l, (Z i).sqrt = ⟨2.0 * PyNum.sqrt (PyNum.abs (Z i).re / 8.0 + Cx.abs ⟨PyNum.abs (Z i).re / 8.0, PyNum.abs (Z i).im / 8.0⟩),
      PyNum.abs (Z i).im / (2.0 * (2.0 * PyNum.sqrt (PyNum.abs (Z i).re / 8.0 + Cx.abs ⟨PyNum.abs (Z i).re / 8.0, PyNum.abs (Z i).im / 8.0⟩)))⟩ := by
    filter_upwards [dec0, dec1, dec] with i h0 h1 h2
    exact cxsqrt_right (fun k => absurd (h1.1 k.1.1) (not_le.2 hr)) (h0.2 hr.le) (fun w => absurd (h2.1 w) (not_lt.2 hi.le))
  exact ⟨hs.congr (d3.mono fun i hi' => by rw [hi']), hd.congr (d3.mono fun i hi' => by rw [hi'])⟩

/-- The ground impedance has positive real part. -/
theorem ground_pos {x : ℝ} (h0 : 0 < x) {ipol : ℤ} {z : Cx ℝ}
    (h : (if ipol ≠ 0 then Cx.div (Cx.sqrt (Cx.sub ⟨15.0, x⟩ ⟨1.0, 0.0⟩)) ⟨15.0, x⟩ else pure (Cx.sqrt (Cx.sub ⟨15.0, x⟩ ⟨1.0, 0.0⟩))) = .ok z) : 0 < z.re := by
  obtain ⟨w, hw⟩ : ∃ w : Cx ℝ, w = Cx.sub ⟨15.0, x⟩ ⟨1.0, 0.0⟩ := ⟨_, rfl⟩
  have wim : w.im = x := by rw [hw]; simp only [Cx.sub]; norm_num
  obtain ⟨p1, p2⟩ := abs_gt (z := w) (by rw [wim]; exact h0)
  obtain ⟨u, v, hz, hu, hv⟩ : ∃ u v, Cx.sqrt w = ⟨u, v⟩ ∧ 0 < u ∧ 0 ≤ v := by
    rw [cxsqrt_real]
    try dsimp only
    refine ⟨_, _, rfl, ?_, ?_⟩
    · simp only [rsqrt]
      exact Real.sqrt_pos.2 (div_pos p1 (by norm_num))
    · rw [if_neg (by rw [wim, zero_lit]; exact not_lt.2 h0.le)]
      simp only [rsqrt]; exact Real.sqrt_nonneg _
  rw [← hw, hz] at h
  by_cases hp : ipol ≠ 0
  · rw [if_pos hp] at h
    have hN : (⟨15.0, x⟩ : Cx ℝ).normSq = 225 + x * x := by rw [normSq_real]; norm_num
    obtain ⟨r, hr, -, hre⟩ := cxdiv_ok (z := ⟨u, v⟩) (w := ⟨15.0, x⟩) (by rw [hN]; nlinarith [mul_self_nonneg x])
    rw [hr, ok_inj] at h
    subst h
    rw [hre]; dsimp only
    rw [hN]
    have : 0 ≤ v * x := mul_nonneg hv h0.le
    have : 0 < u * 15.0 := by positivity
    positivity
  · rw [if_neg hp, pure_ok, ok_inj] at h
    subst h
    exact hu

theorem refine_p2pSys {A D : ∀ i, α i} {f d : ℝ} (hf : F.Approx A f) (hd : F.Approx D d) (pf : 0 < f) (pd : 0 < d) (ipol : Int)
    {Z : ∀ i, List (α i)} {z : List ℝ} (hl : ∀ᶠ i in l, (Z i).length = z.length) :
    Follows l (fun b y => F.Approx (fun i => (b i).1) y.1 ∧ CxApx F (fun i => (b i).2) y.2) (fun i => p2pSys (A i) (D i) ipol (Z i)) (p2pSys f d ipol z) := by
  have dec := hd.le_iff (Follows.zero (F := F)) pd.ne'
  refine Follows.congr (m := fun i => (do
      let xi ← (D i * 1000.0) /! PyNum.ofInt ((z.length : ℤ) - 1)
      let zq ← groundZq (15.0 : α i) 0.005 (A i / 47.7)
      let zgnd := Cx.sqrt (Cx.sub zq ⟨1.0, 0.0⟩)
      let zgnd ← if ipol ≠ 0 then Cx.div zgnd zq else pure zgnd
      pure (xi, zgnd) : Py (α i × Cx (α i)))) ?_ ?_
  swap
  · filter_upwards [dec, hl] with i h1 h2
    unfold p2pSys
    dsimp only
    rw [if_neg (fun w => absurd (h1.1 w) (not_le.2 pd)), h2]
  unfold p2pSys groundZq
  dsimp only
  rw [if_neg (by rw [zero_lit]; exact not_le.2 pd), rofInt]
  refine Follows.bind (Follows.div (hd.mul (Refining.Approx.lit _ _ _)) (Refining.Approx.whole F _)) (fun X x _ hX => ?_)
  simp only [bind_assoc, pure_bind]
  refine Follows.bind (Follows.div ((Refining.Approx.lit _ _ _).mul (Refining.Approx.lit _ _ _)) (hf.div (Refining.Approx.lit _ _ _) (by norm_num))) (fun Y y hy hY => ?_)
  have py : 0 < y := by
    rw [(pyDiv_eq_ok.1 hy).2]; positivity
  have hq : CxApx F (fun i => (⟨15.0, Y i⟩ : Cx (α i))) ⟨15.0, y⟩ := ⟨Refining.Approx.lit _ _ _, hY⟩
  have hs : CxApx F (fun i => Cx.sqrt (Cx.sub ⟨15.0, Y i⟩ ⟨1.0, 0.0⟩ : Cx (α i))) (Cx.sqrt (Cx.sub ⟨15.0, y⟩ ⟨1.0, 0.0⟩)) :=
    (hq.sub ⟨Refining.Approx.lit _ _ _, Refining.Approx.lit _ _ _⟩).sqrt (by simp only [Cx.sub]; norm_num) (by simp only [Cx.sub]; norm_num; exact py)
  refine Follows.ite (Eventually.of_forall fun _ => Iff.rfl) (fun _ => ?_) (fun _ => Follows.pure ⟨hX, hs⟩)
  exact Follows.bind (hs.div hq) (fun W w _ hW => Follows.pure ⟨hX, hW⟩)

/-! ### Preparation -/

/-- After the system parameters are set. -/
structure ReadyApx (F : Refining l α ε) (S : ∀ i, PropSt (α i)) (s : PropSt ℝ) : Prop where
  term : TermApx F S s
  d : F.Approx (fun i => (S i).d) s.d
  wn : F.Approx (fun i => (S i).wn) s.wn
  ens : F.Approx (fun i => (S i).ens) s.ens
  z : CxApx F (fun i => (S i).zgnd) s.zgnd
  klim : OptApx l (EqApx l) (fun i => (S i).klim) s.klim
  marks : s.klimx = 0 ∧ s.mdvarx = 11 ∧ s.lvar = 5 ∧ ∀ i, (S i).klimx = 0 ∧ (S i).mdvarx = 11 ∧ (S i).lvar = 5

/-- What is left in the dictionaries by an earlier link. -/
structure CarryApx (F : Refining l α ε) (S : ∀ i, PropSt (α i)) (s : PropSt ℝ) : Prop where
  scat : OptApx l (ScaApx F) (fun i => (S i).scat) s.scat
  aref : OptApx l F.Approx (fun i => (S i).aref) s.aref
  clim : OptApx l (ClimApx F) (fun i => (S i).clim) s.clim
  vmode : OptApx l (fun b x => EqApx l b x ∧ x.ws = false) (fun i => (S i).vmode) s.vmode
  fgain : OptApx l (FreqApx F) (fun i => (S i).fgain) s.fgain
  dexa : OptApx l (fun b x => F.Approx b x ∧ 0 < x) (fun i => (S i).dexa) s.dexa
  varc : OptApx l (VarApx F) (fun i => (S i).varc) s.varc

theorem untouched_carry {s : PropSt ℝ} (u : Untouched s) (S : ∀ i, PropSt (α i)) : CarryApx F S s := by
  obtain ⟨u1, u2, u3, u4, u5, u6, u7⟩ := u
  have no : ∀ {β : ι → Type} {γ : Type} {Q : (∀ i, β i) → γ → Prop} {A : ∀ i, Option (β i)} {a : Option γ}, a = none → OptApx l Q A a := by
    intro β γ Q A a e; rw [e]; exact OptApx.none
  exact ⟨no u1, no u2, no u3, no u4, no u5, no u6, no u7⟩

theorem refine_p2pSetup {P : ∀ i, PropSt (α i)} {p : PropSt ℝ} {A : ∀ i, List (α i)} {a : List ℝ} (h : LinkApx F P p A a) (u : Untouched p)
    (pf : 0 < p.fmhz) (pd : 0 < p.d) :
    Follows l (fun S s => ReadyApx F S s ∧ Untouched s) (fun i => p2pSetup (P i) (A i)) (p2pSetup p a) := by
  simp only [p2pSetup_eq, h.ipol]
  refine Follows.bind (refine_p2pSys h.fmhz h.d pf pd p.ipol h.len) (fun B b _ hB => Follows.pure ?_)
  refine ⟨⟨⟨⟨?_, h.len, hB.1, h.z⟩, h.hg, ?_⟩, h.d, h.fmhz.div (Refining.Approx.lit _ _ _) (by norm_num), Refining.Approx.lit _ _ _, hB.2,
    OptApx.some (b := fun _ => (5 : Int)) (Eventually.of_forall fun _ => rfl), rfl, rfl, rfl, fun _ => ⟨rfl, rfl, rfl⟩⟩, u⟩
  · filter_upwards [h.len] with i hi
    simp only [hi]
  unfold effCurvature
  exact (Refining.Approx.lit _ _ _).mul ((Refining.Approx.lit _ _ _).sub ((Refining.Approx.lit _ _ _).mul
    (Refining.Approx.exp ((Refining.Approx.lit _ _ _).div (Refining.Approx.lit _ _ _) (by norm_num)))))

/-- Prepared for the one call of `lrprop`. -/
structure OnceApx (F : Refining l α ε) (P : ∀ i, PropSt (α i)) (p : PropSt ℝ) : Prop where
  mdp : p.mdp = -1 ∧ ∀ᶠ i in l, (P i).mdp = -1
  inp : InApx F (fun i => inp (P i)) (inp p)
  scat : OptApx l (ScaApx F) (fun i => (P i).scat) p.scat
  stat : StatApx F P p
  knee : p.lvar ≤ 0 → Kneed p
  d : F.Approx (fun i => (P i).d) p.d
  xi : F.Approx (fun i => (P i).pfl.xi) p.pfl.xi

/-- After it. -/
structure DoneApx (F : Refining l α ε) (Q : ∀ i, PropSt (α i)) (q : PropSt ℝ) : Prop where
  stat : StatApx F Q q
  knee : q.lvar ≤ 0 → Kneed q
  d : F.Approx (fun i => (Q i).d) q.d
  xi : F.Approx (fun i => (Q i).pfl.xi) q.pfl.xi
  hor : OptApx l (HorApx F) (fun i => (Q i).hor) q.hor
  scat : OptApx l (ScaApx F) (fun i => (Q i).scat) q.scat

theorem refine_once {P : ∀ i, PropSt (α i)} {p : PropSt ℝ} (h : OnceApx F P p)
    (a : Adm (inp p)) (pdh : 0 < p.dh) (c : (linkOf p).Clear p.dist) :
    Follows l (DoneApx F) (fun i => lrprop 0.0 (P i)) (lrprop 0.0 p) := by
  have hm := h.mdp.1
  rw [lrprop_setup (by omega)]
  have dd : distOf p 0.0 = p.dist := by unfold distOf; rw [if_neg (by omega)]
  have dm : mdpOf p = -1 := by unfold mdpOf; rw [if_neg (by omega), hm]
  rw [dd, dm]
  have key : Follows l (DoneApx F) (fun i => (do
      let s ← setupC p.mdp (inp (P i))
      let c ← runC (inp (P i)) s.h s.l (P i).dist { cacheOf (P i) with wlos := false, wscat := false, ascat1 := 0.0 }
      pure (setCache { withSetup (P i) s with dist := (P i).dist, mdp := -1, kwx := distKwxC s.l (P i).dist (lrKwx (P i) s.h) } c) : Py (PropSt (α i)))) (do
      let s ← setupC p.mdp (inp p)
      let c ← runC (inp p) s.h s.l p.dist { cacheOf p with wlos := false, wscat := false, ascat1 := 0.0 }
      pure (setCache { withSetup p s with dist := p.dist, mdp := -1, kwx := distKwxC s.l p.dist (lrKwx p s.h) } c)) := by
    refine Follows.bind (refine_setup (mdp := p.mdp) h.inp a pdh (link_terms a c.diff) (link_edges c.diff)) (fun S s hs hS => ?_)
    have h0 : CacheApx F s.l (fun i => { cacheOf (P i) with wlos := false, wscat := false, ascat1 := 0.0 })
        { cacheOf p with wlos := false, wscat := false, ascat1 := 0.0 } := by
      refine ⟨Eventually.of_forall fun _ => rfl, Eventually.of_forall fun _ => rfl, fun _ => ⟨Follows.zero, zero_lit⟩, ?_, ?_⟩
      · intro x hx
        obtain ⟨b, hb, q⟩ := h.scat x hx
        exact ⟨b, hb, q, fun c => absurd c (by simp)⟩
      · exact h.stat.aref
    have st := h.stat
    refine Follows.bind (refine_runC hs h.inp a pdh hS st.dist st.pos.1 c.horizon c.sight c.scatter h0) (fun C k hk hC => Follows.pure ?_)
    refine ⟨?_, h.knee, h.d, h.xi, OptApx.some hS.h, ?_⟩
    · exact ⟨st.lvar, st.klim, st.mdvar, st.clim, st.vmode, st.fgain, st.dexa, st.varc, hC.aref, st.dist, st.dh, st.wn, st.he0, st.he1, st.pos⟩
    · intro x hx
      obtain ⟨b, hb, q⟩ := hC.scat x hx
      exact ⟨b, hb, q.1⟩
  refine key.congr ?_
  filter_upwards [h.mdp.2] with i hi
  rw [lrprop_setup (by omega)]
  have dd : distOf (P i) 0.0 = (P i).dist := by unfold distOf; rw [if_neg (by omega)]
  have dm : mdpOf (P i) = -1 := by unfold mdpOf; rw [if_neg (by omega), hi]
  rw [dd, dm, hi, hm]

theorem marks_p2p {β : Type} [PyNum β] (r : PropSt β) (r1 : r.klimx = 0) (r2 : r.mdvarx = 11) (r3 : r.lvar = 5) :
    prepMarks r = { r with lvar := 5, mdvar := some 11 } := by
  obtain ⟨⟩ := r
  simp only at r1 r2 r3
  subst r1 r2 r3
  rfl

theorem refine_qlrpfl {S : ∀ i, PropSt (α i)} {s q : PropSt ℝ} (h : ReadyApx F S s) (u : CarryApx F S s) {n : ℕ} (hn : 1 ≤ n) (hnp : s.pfl.np = n)
    (hx : 0 < s.pfl.xi) (hl : n < s.pfl.z.length) (hg0 : 0 < s.hg.x0) (hg1 : 0 < s.hg.x1) (hκ : 0 < s.gme) (pw : 0 < s.wn) (pz : 0 < s.zgnd.re)
    (e : qlrpflPrep s = .ok q) (g : (pathOf s n).Generic (s.pfl.z.getD (n - 1) 0) q.dh) (pdh : 0 < q.dh) (c : (linkOf q).Clear q.dist) :
    Follows l (DoneApx F) (fun i => qlrpfl (S i)) (qlrpfl s) := by
  obtain ⟨Q, hQ, w⟩ := refine_way h.term hn hnp hx hl hg0 hg1 hκ e g
  obtain ⟨q', e', c0, c1, c2, c3, c4, c5, c6, -⟩ := Props.C39_total hn hnp hx hl hg0 hg1 hκ
  rw [e, ok_inj] at e'
  subst e'
  obtain ⟨q', e', PR⟩ := qlrpflPrep_ok hn hnp hx hl hg0 hg1 hκ
  rw [e, ok_inj] at e'
  subst e'
  obtain ⟨m1, m2, m3, m5⟩ := h.marks
  have hr := PR.rest
  rw [m1, m2, m3] at hr
  have fq : q.hg = s.hg ∧ q.wn = s.wn ∧ q.ens = s.ens ∧ q.gme = s.gme ∧ q.zgnd = s.zgnd ∧ q.d = s.d ∧ q.pfl = s.pfl ∧ q.scat = s.scat ∧ q.aref = s.aref ∧
      q.clim = s.clim ∧ q.vmode = s.vmode ∧ q.fgain = s.fgain ∧ q.dexa = s.dexa ∧ q.varc = s.varc ∧ q.mdp = -1 ∧ q.lvar = 5 ∧ q.mdvar = some 11 ∧ q.klim = s.klim := by
    rw [hr]; exact ⟨rfl, rfl, rfl, rfl, rfl, rfl, rfl, rfl, rfl, rfl, rfl, rfl, rfl, rfl, rfl, rfl, rfl, rfl⟩
  obtain ⟨f1, f2, f3, f4, f5, f6, f7, f8, f9, f10, f11, f12, f13, f14, f15, f16, f17, f18⟩ := fq
  have rs : ∀ i, Q i = { S i with he := (Q i).he, dl := (Q i).dl, the := (Q i).the, dist := (Q i).dist, dh := (Q i).dh, mdp := -1, lvar := 5, mdvar := some 11 } := by
    intro i
    have := w.rest i
    rwa [marks_p2p { S i with he := (Q i).he, dl := (Q i).dl, the := (Q i).the, dist := (Q i).dist, dh := (Q i).dh, mdp := -1 } (m5 i).1 (m5 i).2.1 (m5 i).2.2] at this
  have E : ∀ {β : ∀ i, Type} (f : ∀ i, PropSt (α i) → β i), (∀ i, f i (Q i) = f i { S i with he := (Q i).he, dl := (Q i).dl, the := (Q i).the, dist := (Q i).dist, dh := (Q i).dh, mdp := -1, lvar := 5, mdvar := some 11 }) :=
    fun f i => congrArg (f i) (rs i)
  have a : Adm (inp q) := by
    constructor <;> simp only [inp]
    · rw [f1]; exact hg0
    · rw [f1]; exact hg1
    · linarith
    · linarith
    · exact c2
    · exact c3
    · rw [f2]; exact pw
    · rw [f4]; exact hκ
    · exact c4
    · rw [f5]; exact pz
  have pdist : 0 < q.dist := by
    rw [c5]; have : (0 : ℝ) < n := by exact_mod_cast hn
    positivity
  have o : OnceApx F Q q := by
    refine ⟨⟨f15, Eventually.of_forall fun i => (E (fun _ p => p.mdp) i).trans rfl⟩, ⟨?_, ?_, w.he.1, w.he.2, w.dl.1, w.dl.2, w.the.1, w.the.2, ?_, w.dh, ?_, ?_, ?_, ?_⟩, ?_,
      ⟨?_, ?_, ?_, ?_, ?_, ?_, ?_, ?_, ?_, w.dist, w.dh, ?_, w.he.1, w.he.2, pdist, by rw [f2]; exact pw,
        by linarith, by linarith⟩, fun k => absurd k (by rw [f16]; norm_num), ?_, ?_⟩
    · show F.Approx (fun i => (Q i).hg.x0) q.hg.x0
      rw [f1]; exact h.term.hg.1.congr (Eventually.of_forall fun i => (E (fun _ p => p.hg.x0) i).symm)
    · show F.Approx (fun i => (Q i).hg.x1) q.hg.x1
      rw [f1]; exact h.term.hg.2.congr (Eventually.of_forall fun i => (E (fun _ p => p.hg.x1) i).symm)
    · show F.Approx (fun i => (Q i).wn) q.wn
      rw [f2]; exact h.wn.congr (Eventually.of_forall fun i => (E (fun _ p => p.wn) i).symm)
    · show F.Approx (fun i => (Q i).ens) q.ens
      rw [f3]; exact h.ens.congr (Eventually.of_forall fun i => (E (fun _ p => p.ens) i).symm)
    · show F.Approx (fun i => (Q i).gme) q.gme
      rw [f4]; exact h.term.gme.congr (Eventually.of_forall fun i => (E (fun _ p => p.gme) i).symm)
    · show F.Approx (fun i => (Q i).zgnd.re) q.zgnd.re
      rw [f5]; exact h.z.re.congr (Eventually.of_forall fun i => (E (fun _ p => p.zgnd.re) i).symm)
    · show F.Approx (fun i => (Q i).zgnd.im) q.zgnd.im
      rw [f5]; exact h.z.im.congr (Eventually.of_forall fun i => (E (fun _ p => p.zgnd.im) i).symm)
    · rw [f8]; exact u.scat.congr (Eventually.of_forall fun i => (E (fun _ p => p.scat) i).symm)
    · rw [f16]; exact Eventually.of_forall fun i => (E (fun _ p => p.lvar) i).trans rfl
    · rw [f18]; exact h.klim.congr (Eventually.of_forall fun i => (E (fun _ p => p.klim) i).symm)
    · rw [f17]
      exact (OptApx.some (b := fun _ => (11 : Int)) ⟨Eventually.of_forall fun _ => rfl, by norm_num⟩).congr (Eventually.of_forall fun i => ((E (fun _ p => p.mdvar) i).trans rfl).symm)
    · rw [f10]; exact u.clim.congr (Eventually.of_forall fun i => (E (fun _ p => p.clim) i).symm)
    · rw [f11]; exact u.vmode.congr (Eventually.of_forall fun i => (E (fun _ p => p.vmode) i).symm)
    · rw [f12]; exact u.fgain.congr (Eventually.of_forall fun i => (E (fun _ p => p.fgain) i).symm)
    · rw [f13]; exact u.dexa.congr (Eventually.of_forall fun i => (E (fun _ p => p.dexa) i).symm)
    · rw [f14]; exact u.varc.congr (Eventually.of_forall fun i => (E (fun _ p => p.varc) i).symm)
    · rw [f9]; exact u.aref.congr (Eventually.of_forall fun i => (E (fun _ p => p.aref) i).symm)
    · rw [f2]; exact h.wn.congr (Eventually.of_forall fun i => (E (fun _ p => p.wn) i).symm)
    · rw [f6]; exact h.d.congr (Eventually.of_forall fun i => (E (fun _ p => p.d) i).symm)
    · rw [f7]; exact h.term.pfl.xi.congr (Eventually.of_forall fun i => (E (fun _ p => p.pfl.xi) i).symm)
  unfold qlrpfl
  rw [e, ok_bind]
  refine (refine_once o a pdh c).congr ?_
  filter_upwards [hQ] with i hi
  rw [hi, ok_bind]

/-! ### Report and rows -/

/-- Not within half a sample interval of the horizon: there the report depends on exact cancellation. -/
def ReportClear (q : PropSt ℝ) : Prop := ∀ h, q.hor = some h → q.pfl.xi / 2 < |q.dist - h.dlsa|

/-- The same messages, except perhaps for the one on scatter. -/
def SameReport (m m' : List P2PMsg) : Prop := ∀ x, x ≠ .scatterDominant → (x ∈ m ↔ x ∈ m')

theorem refine_report {Q : ∀ i, PropSt (α i)} {q : PropSt ℝ} (h : DoneApx F Q q) (hne : ∀ k, q.hor = some k → q.dist ≠ k.dlsa) (px : 0 < q.pfl.xi) :
    Follows l (fun b y => ReportClear q → ∀ᶠ i in l, SameReport (b i) y) (fun i => p2pReport (Q i)) (p2pReport q) := by
  have hz := Follows.zero (F := F)
  unfold p2pReport
  refine Follows.bind (Follows.need h.hor _) (fun H k hk hH => ?_)
  have hk' := need_eq_ok.1 hk
  have ne := hne k hk'
  have dec := h.stat.dist.le_iff hH.dlsa ne
  have hQ : F.Approx (fun i => (Q i).dist - (H i).dlsa) (q.dist - k.dlsa) := h.stat.dist.sub hH.dlsa
  have hq : F.Approx (fun i => pyMax ((Q i).dist - (H i).dlsa - 0.5 * (Q i).pfl.xi) 0.0 - pyMax (-((Q i).dist - (H i).dlsa) - 0.5 * (Q i).pfl.xi) 0.0)
      (pyMax (q.dist - k.dlsa - 0.5 * q.pfl.xi) 0.0 - pyMax (-(q.dist - k.dlsa) - 0.5 * q.pfl.xi) 0.0) :=
    ((hQ.sub ((Refining.Approx.lit _ _ _).mul h.xi)).pyMax (Refining.Approx.lit _ _ _)).sub ((hQ.neg.sub ((Refining.Approx.lit _ _ _).mul h.xi)).pyMax (Refining.Approx.lit _ _ _))
  have cls : ReportClear q → ∀ᶠ i in l,
      (if pyMax ((Q i).dist - (H i).dlsa - 0.5 * (Q i).pfl.xi) 0.0 - pyMax (-((Q i).dist - (H i).dlsa) - 0.5 * (Q i).pfl.xi) 0.0 < 0.0 then P2PMsg.lineOfSight
        else if pyEq (pyMax ((Q i).dist - (H i).dlsa - 0.5 * (Q i).pfl.xi) 0.0 - pyMax (-((Q i).dist - (H i).dlsa) - 0.5 * (Q i).pfl.xi) 0.0) 0.0 then P2PMsg.singleHorizon else P2PMsg.doubleHorizon) =
      (if pyMax (q.dist - k.dlsa - 0.5 * q.pfl.xi) 0.0 - pyMax (-(q.dist - k.dlsa) - 0.5 * q.pfl.xi) 0.0 < 0.0 then P2PMsg.lineOfSight
        else if pyEq (pyMax (q.dist - k.dlsa - 0.5 * q.pfl.xi) 0.0 - pyMax (-(q.dist - k.dlsa) - 0.5 * q.pfl.xi) 0.0) 0.0 then P2PMsg.singleHorizon else P2PMsg.doubleHorizon) := by
    intro rc
    have far := rc k hk'
    have nz : pyMax (q.dist - k.dlsa - 0.5 * q.pfl.xi) 0.0 - pyMax (-(q.dist - k.dlsa) - 0.5 * q.pfl.xi) 0.0 ≠ 0 := by
      rw [pyMax_real, pyMax_real, zero_lit]
      rcases abs_cases (q.dist - k.dlsa) with ⟨e, -⟩ | ⟨e, -⟩
      · rw [e] at far
        rw [max_eq_left (by norm_num; linarith), max_eq_right (by norm_num; linarith)]
        norm_num; intro w; linarith
      · rw [e] at far
        rw [max_eq_right (by norm_num; linarith), max_eq_left (by norm_num; linarith)]
        norm_num; intro w; linarith
    have d1 := hq.lt_iff hz nz
    have d2 := hq.pyEq_not hz nz
    filter_upwards [d1, d2] with i k1 k2
    rw [show ((0.0 : ℝ)) = 0 from zero_lit] at *
    by_cases w : pyMax (q.dist - k.dlsa - 0.5 * q.pfl.xi) 0 - pyMax (-(q.dist - k.dlsa) - 0.5 * q.pfl.xi) 0 < 0
    · rw [if_pos (k1.2 w), if_pos w]
    · rw [if_neg (fun v => w (k1.1 v)), if_neg w, if_neg k2, if_neg (by rw [pyEq_real]; exact nz)]
  have key : ∀ (C : ι → P2PMsg) (c : P2PMsg), (ReportClear q → ∀ᶠ i in l, C i = c) → Follows l (fun b y => ReportClear q → ∀ᶠ i in l, SameReport (b i) y)
      (fun i => if (Q i).dist ≤ (H i).dlsa then pure [C i, .diffractionDominant] else (do
        let s ← need (Q i).scat "dx"
        if s.dx < (Q i).dist then pure [C i, .scatterDominant] else pure [C i] : Py (List P2PMsg)))
      (if q.dist ≤ k.dlsa then pure [c, .diffractionDominant] else (do
        let s ← need q.scat "dx"
        if s.dx < q.dist then pure [c, .scatterDominant] else pure [c] : Py (List P2PMsg))) := by
    intro C c cls
    refine Follows.ite dec (fun _ => Follows.pure (fun rc => ?_)) (fun _ => ?_)
    · filter_upwards [cls rc] with i hi
      rw [hi]
      exact fun _ _ => Iff.rfl
    refine Follows.bind (Follows.need h.scat _) (fun K s hs hK => ?_)
    intro y hy
    refine ⟨fun i => if (K i).dx < (Q i).dist then [C i, P2PMsg.scatterDominant] else [C i], Eventually.of_forall fun i => ?_, fun rc => ?_⟩
    · dsimp only
      split_ifs <;> rfl
    · filter_upwards [cls rc] with i h1
      rw [h1]
      have hy' : y = [c, P2PMsg.scatterDominant] ∨ y = [c] := by
        split_ifs at hy
        · exact .inl (ok_inj.1 hy).symm
        · exact .inr (ok_inj.1 hy).symm
      intro x hx
      rcases hy' with rfl | rfl <;> split_ifs <;> simp [hx]
  exact key _ _ cls

/-- Rows: equal labels, approximate distance and loss. -/
def LineApx (F : Refining l α ε) (R : ∀ i, P2PRow (α i)) (r : P2PRow ℝ) : Prop :=
  (∀ᶠ i in l, (R i).reliability = r.reliability ∧ (R i).confidence = r.confidence) ∧ F.Approx (fun i => (R i).distance_km) r.distance_km ∧ F.Approx (fun i => (R i).loss) r.loss

/-- Between two rows. -/
structure TurnApx (F : Refining l α ε) (Q : ∀ i, PropSt (α i)) (q : PropSt ℝ) : Prop where
  stat : StatApx F Q q
  knee : q.lvar ≤ 0 → Kneed q
  d : F.Approx (fun i => (Q i).d) q.d

theorem refine_p2pInner {S X : ∀ i, α i} {s x : ℝ} (hs : F.Approx S s) (n : Int) (hx : F.Approx X x)
    {Z : ∀ i, List (Int × α i)} {z : List (Int × ℝ)} (hz : ListApx l (LevApx F) Z z) {Q : ∀ i, PropSt (α i)} {q : PropSt ℝ} (h : TurnApx F Q q) :
    Follows l (fun b r => ListApx l (LineApx F) (fun i => (b i).1) r.1 ∧ TurnApx F (fun i => (b i).2) r.2)
      (fun i => p2pInner (S i) n (X i) (Z i) (Q i)) (p2pInner s n x z q) := by
  induction z generalizing Z Q q with
  | nil =>
    refine Follows.congr (m := fun i => p2pInner (S i) n (X i) [] (Q i)) ?_ (by unfold ListApx at hz; filter_upwards [hz] with i hi; rw [hi])
    unfold p2pInner
    exact Follows.pure ⟨ListApx.nil, h⟩
  | cons c cs ih =>
    obtain ⟨b, B, h1, h2, h3⟩ := hz
    obtain ⟨m, z⟩ := c
    refine Follows.congr (m := fun i => p2pInner (S i) n (X i) ((m, (b i).2) :: B i) (Q i)) ?_
      (by filter_upwards [h1, h2.1] with i hi hn; rw [hi]; congr 2; exact Prod.ext hn.symm rfl)
    unfold p2pInner
    have hv : Follows l (fun b r => F.Approx (fun i => (b i).1) r.1 ∧ TurnApx F (fun i => (b i).2) r.2) (fun i => avar (X i) 0.0 (b i).2 (Q i)) (avar x 0.0 z q) := by
      intro r hr
      obtain ⟨b, hb, h4, h5, h6⟩ := refine_avar h.stat h.knee hx (Refining.Approx.lit _ _ _) h2.2 r hr
      refine ⟨b, hb, h4, h5, fun _ => h6, ?_⟩
      have e : r.2.d = q.d := by obtain ⟨_, _, _, _, _, _, _, _, e⟩ := avar_frame hr; rw [e]
      rw [e]
      refine h.d.congr ?_
      filter_upwards [hb] with i hi
      obtain ⟨_, _, _, _, _, _, _, _, e⟩ := avar_frame hi; rw [e]
    refine Follows.bind hv (fun A a _ hA => ?_)
    obtain ⟨a1, a2⟩ := hA
    refine Follows.bind (ih h3 a2) (fun R r _ hR => ?_)
    exact Follows.pure ⟨ListApx.cons ⟨Eventually.of_forall fun _ => ⟨rfl, rfl⟩, a2.d, hs.add a1⟩ hR.1, hR.2⟩

theorem refine_p2pRows {S : ∀ i, α i} {s : ℝ} (hs : F.Approx S s) {W : ∀ i, List (Int × α i)} {w : List (Int × ℝ)} (hw : ListApx l (LevApx F) W w)
    {Z : ∀ i, List (Int × α i)} {z : List (Int × ℝ)} (hz : ListApx l (LevApx F) Z z) {Q : ∀ i, PropSt (α i)} {q : PropSt ℝ} (h : TurnApx F Q q) :
    Follows l (fun b r => ListApx l (LineApx F) (fun i => (b i).1) r.1) (fun i => p2pRows (S i) (W i) (Z i) (Q i)) (p2pRows s w z q) := by
  induction z generalizing Z Q q with
  | nil =>
    refine Follows.congr (m := fun i => p2pRows (S i) (W i) [] (Q i)) ?_ (by unfold ListApx at hz; filter_upwards [hz] with i hi; rw [hi])
    unfold p2pRows
    exact Follows.pure ListApx.nil
  | cons c cs ih =>
    obtain ⟨b, B, h1, h2, h3⟩ := hz
    obtain ⟨m, z⟩ := c
    refine Follows.congr (m := fun i => p2pRows (S i) (W i) ((m, (b i).2) :: B i) (Q i)) ?_
      (by filter_upwards [h1, h2.1] with i hi hn; rw [hi]; congr 2; exact Prod.ext hn.symm rfl)
    unfold p2pRows
    refine Follows.bind (refine_p2pInner hs m h2.2 hw h) (fun A a _ hA => ?_)
    refine Follows.bind (ih h3 hA.2) (fun R r _ hR => ?_)
    exact Follows.pure (hA.1.append hR)

end Itm
