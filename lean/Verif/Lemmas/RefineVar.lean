import Verif.Model.Stats
import Verif.Lemmas.Refine
import Mathlib.Tactic.IntervalCases
import Mathlib.Tactic.FieldSimp

/-! `avar` in arithmetics of growing precision. -/

namespace Itm
open Itm.Spec Filter Asymptotics Topology

variable {ι : Type} {l : Filter ι} {α : ι → Type} [∀ i, PyNum (α i)] {ε : ι → ℝ} {F : Refining l α ε}

/-- Keys of the dictionary: whenever the exact run has one, so do finally the approximate ones, with related contents. -/
def OptApx (l : Filter ι) {β : ι → Type} {γ : Type} (Q : (∀ i, β i) → γ → Prop) (A : ∀ i, Option (β i)) (a : Option γ) : Prop :=
  ∀ x, a = some x → ∃ b, (∀ᶠ i in l, A i = some (b i)) ∧ Q b x

/-- Exact equality of contents. -/
def EqApx (l : Filter ι) {γ : Type} (A : ι → γ) (a : γ) : Prop := ∀ᶠ i in l, A i = a

section
variable {β : ι → Type} {γ : Type} {Q : (∀ i, β i) → γ → Prop}

theorem OptApx.some {b : ∀ i, β i} {x : γ} (h : Q b x) : OptApx l Q (fun i => some (b i)) (some x) := by
  intro y hy
  obtain rfl := Option.some.inj hy
  exact ⟨b, Eventually.of_forall fun _ => rfl, h⟩

theorem OptApx.none {A : ∀ i, Option (β i)} : OptApx l Q A none := fun _ h => absurd h (by simp)

theorem Follows.need {A : ∀ i, Option (β i)} {a : Option γ} (h : OptApx l Q A a) (s : String) :
    Follows l Q (fun i => need (A i) s) (need a s) := by
  intro x hx
  cases a with
  | none => exact absurd hx (by unfold Itm.need; simp)
  | some y =>
    rw [show Itm.need (some y) s = .ok y from rfl, ok_inj] at hx
    subst hx
    obtain ⟨b, hb, q⟩ := h y rfl
    refine ⟨b, ?_, q⟩
    filter_upwards [hb] with i hi
    rw [hi]; rfl

end

/-- Either branch approximates the exact result. -/
theorem Follows.choose {c : ι → Prop} {_ : ∀ i, Decidable (c i)} {m n : ∀ i, Py (α i)} {r : Py ℝ} (h1 : Follows l F.Approx m r)
    (h2 : Follows l F.Approx n r) : Follows l F.Approx (fun i => if c i then m i else n i) r := by
  intro x hx
  obtain ⟨a, ha, qa⟩ := h1 x hx
  obtain ⟨b, hb, qb⟩ := h2 x hx
  refine ⟨fun i => if c i then a i else b i, ?_, qa.choose qb⟩
  filter_upwards [ha, hb] with i k1 k2
  split_ifs <;> assumption

/-! ### Climate -/

/-- Approximation of climate constants; lengths, spreads and gains of the exact ones are positive. -/
structure ClimApx (F : Refining l α ε) (C : ∀ i, Climate (α i)) (c : Climate ℝ) : Prop where
  cv1 : F.Approx (fun i => (C i).cv1) c.cv1
  cv2 : F.Approx (fun i => (C i).cv2) c.cv2
  yv1 : F.Approx (fun i => (C i).yv1) c.yv1
  yv2 : F.Approx (fun i => (C i).yv2) c.yv2
  yv3 : F.Approx (fun i => (C i).yv3) c.yv3
  csm1 : F.Approx (fun i => (C i).csm1) c.csm1
  csm2 : F.Approx (fun i => (C i).csm2) c.csm2
  ysm1 : F.Approx (fun i => (C i).ysm1) c.ysm1
  ysm2 : F.Approx (fun i => (C i).ysm2) c.ysm2
  ysm3 : F.Approx (fun i => (C i).ysm3) c.ysm3
  csp1 : F.Approx (fun i => (C i).csp1) c.csp1
  csp2 : F.Approx (fun i => (C i).csp2) c.csp2
  ysp1 : F.Approx (fun i => (C i).ysp1) c.ysp1
  ysp2 : F.Approx (fun i => (C i).ysp2) c.ysp2
  ysp3 : F.Approx (fun i => (C i).ysp3) c.ysp3
  csd1 : F.Approx (fun i => (C i).csd1) c.csd1
  zd : F.Approx (fun i => (C i).zd) c.zd
  cfm1 : F.Approx (fun i => (C i).cfm1) c.cfm1
  cfm2 : F.Approx (fun i => (C i).cfm2) c.cfm2
  cfm3 : F.Approx (fun i => (C i).cfm3) c.cfm3
  cfp1 : F.Approx (fun i => (C i).cfp1) c.cfp1
  cfp2 : F.Approx (fun i => (C i).cfp2) c.cfp2
  cfp3 : F.Approx (fun i => (C i).cfp3) c.cfp3
  pv : 0 < c.yv1 ∧ 0 < c.yv3
  pm : 0 < c.ysm1 ∧ 0 < c.ysm3 ∧ 0 < c.csm1 ∧ 0 < c.csm2
  pp : 0 < c.ysp1 ∧ 0 < c.ysp3 ∧ 0 < c.csp1 ∧ 0 < c.csp2
  pd : 0 < c.csd1 ∧ 0 < c.zd
  pf : 0 < c.cfm1 ∧ 0 ≤ c.cfm2 ∧ 0 < c.cfp1 ∧ 0 ≤ c.cfp2

set_option maxHeartbeats 4000000 in
theorem refine_climates {k : ℤ} (h1 : 1 ≤ k) (h7 : k ≤ 7) :
    Follows l (ClimApx F) (fun i => pyGet (climates : List (Climate (α i))) (k - 1)) (pyGet (climates : List (Climate ℝ)) (k - 1)) := by
  interval_cases k
  all_goals
    refine Follows.ok (Q := ClimApx F) ?_
    constructor
    all_goals first
      | (dsimp only; appr; done)
      | (norm_num; done)

theorem refine_curv {c1 c2 x1 x2 x3 de : ∀ i, α i} {d1 d2 y1 y2 y3 e : ℝ} (h1 : F.Approx c1 d1) (h2 : F.Approx c2 d2) (k1 : F.Approx x1 y1)
    (k2 : F.Approx x2 y2) (k3 : F.Approx x3 y3) (he : F.Approx de e) (p1 : 0 < y1) (p3 : 0 < y3) :
    F.Approx (fun i => curv (c1 i) (c2 i) (x1 i) (x2 i) (x3 i) (de i)) (curv d1 d2 y1 y2 y3 e) := by
  unfold curv
  have q1 := he.div k1 p1.ne'
  have q3 := (he.sub k2).div k3 p3.ne'
  have n : ∀ v : ℝ, (1.0 : ℝ) + npow v 2 ≠ 0 := by
    intro v
    rw [npow_real, show (1.0 : ℝ) = 1 by norm_num]
    positivity
  have u3 := (Refining.Approx.lit (F := F) 10 true 1).add (q3.npow 2)
  have u1 := (Refining.Approx.lit (F := F) 10 true 1).add (q1.npow 2)
  exact ((h1.add (h2.div u3 (n _))).mul (q1.npow 2)).div u1 (n _)

theorem curv_pos {d1 d2 y1 y2 y3 e : ℝ} (h1 : 0 < d1) (h2 : 0 < d2) (p1 : 0 < y1) (he : 0 < e) : 0 < curv d1 d2 y1 y2 y3 e := by
  unfold curv
  simp only [npow_real, show (1.0 : ℝ) = 1 by norm_num]
  positivity

/-- Approximation of the frequency gains; the exact ones are positive. -/
structure FreqApx (F : Refining l α ε) (G : ∀ i, FreqGain (α i)) (g : FreqGain ℝ) : Prop where
  gm : F.Approx (fun i => (G i).gm) g.gm
  gp : F.Approx (fun i => (G i).gp) g.gp
  pos : 0 < g.gm ∧ 0 < g.gp

theorem refine_freqGain {C : ∀ i, Climate (α i)} {c : Climate ℝ} (hc : ClimApx F C c) {W : ∀ i, α i} {w : ℝ} (hw : F.Approx W w) :
    Follows l (FreqApx F) (fun i => freqGain (C i) (W i)) (freqGain c w) := by
  unfold freqGain
  refine Follows.bind (Follows.log ((Refining.Approx.lit _ _ _).mul hw)) (fun Q q _ hq => ?_)
  refine Follows.bind (Follows.div hc.cfm2 (((hc.cfm3.mul hq).npow 2).add (Refining.Approx.lit _ _ _))) (fun U u hu' hu => ?_)
  refine Follows.bind (Follows.div hc.cfp2 (((hc.cfp3.mul hq).npow 2).add (Refining.Approx.lit _ _ _))) (fun V v hv' hv => ?_)
  obtain ⟨-, rfl⟩ := pyDiv_eq_ok.1 hu'
  obtain ⟨-, rfl⟩ := pyDiv_eq_ok.1 hv'
  obtain ⟨f1, f2, f3, f4⟩ := hc.pf
  refine Follows.pure ⟨hc.cfm1.add hu, hc.cfp1.add hv, ?_, ?_⟩
  · simp only [npow_real, show (1.0 : ℝ) = 1 by norm_num]; positivity
  · simp only [npow_real, show (1.0 : ℝ) = 1 by norm_num]; positivity

theorem third_approx : F.Approx (fun i => (third : α i)) (third : ℝ) := by
  unfold third
  refine Refining.Approx.div (Refining.Approx.lit _ _ _) (Refining.Approx.lit _ _ _) ?_
  norm_num

theorem refine_dexa {H : ∀ i, Pair (α i)} {h : Pair ℝ} (h0 : F.Approx (fun i => (H i).x0) h.x0) (h1 : F.Approx (fun i => (H i).x1) h.x1)
    {W : ∀ i, α i} {w : ℝ} (hw : F.Approx W w) (p0 : 0 < h.x0) (p1 : 0 < h.x1) (pw : 0 < w) :
    Follows l (fun b x => F.Approx b x ∧ 0 < x) (fun i => dexaOf (H i) (W i)) (dexaOf h w) := by
  unfold dexaOf
  refine Follows.bind (Follows.sqrt ((Refining.Approx.lit _ _ _).mul h0) (by positivity)) (fun A a ha' ha => ?_)
  refine Follows.bind (Follows.sqrt ((Refining.Approx.lit _ _ _).mul h1) (by positivity)) (fun B b hb' hb => ?_)
  refine Follows.bind (Follows.div (Refining.Approx.lit _ _ _) hw) (fun C c hc' hc => ?_)
  obtain ⟨-, rfl⟩ := pyDiv_eq_ok.1 hc'
  refine Follows.bind (Follows.pow hc third_approx (by positivity)) (fun D d hd' hd => ?_)
  obtain ⟨-, rfl⟩ := mathSqrt_eq_ok.1 ha'
  obtain ⟨-, rfl⟩ := mathSqrt_eq_ok.1 hb'
  obtain ⟨-, -, rfl⟩ := pyPow_eq_ok.1 hd'
  refine Follows.pure ⟨(ha.add hb).add hd, ?_⟩
  positivity

theorem refine_effDist {D X : ∀ i, α i} {d x : ℝ} (hd : F.Approx D d) (hx : F.Approx X x) (pd : 0 < d) (px : 0 < x) :
    Follows l (fun b y => F.Approx b y ∧ 0 < y) (fun i => effDist (D i) (X i)) (effDist d x) := by
  have key : Follows l F.Approx (fun i => effDist (D i) (X i)) (effDist d x) := by
    unfold effDist
    have m1 : Follows l F.Approx (fun i => (130e3 * D i) /! X i) ((130e3 * d) /! x) := Follows.div ((Refining.Approx.lit _ _ _).mul hd) hx
    have m2 : Follows l F.Approx (fun i => (pure (130e3 + D i - X i) : Py (α i))) (pure (130e3 + d - x)) :=
      Follows.pure (((Refining.Approx.lit _ _ _).add hd).sub hx)
    by_cases tie : d = x
    · subst tie
      rw [if_neg (lt_irrefl _)]
      refine Follows.choose ?_ m2
      have : (130e3 * d) /! d = (pure (130e3 + d - d) : Py ℝ) := by
        rw [pyDiv_ok pd.ne', pure_ok]
        congr 1
        field_simp
        ring
      rwa [this] at m1
    · exact Follows.ite (hd.lt_iff hx tie) (fun _ => m1) (fun _ => m2)
  intro y hy
  obtain ⟨b, hb, q⟩ := key y hy
  refine ⟨b, hb, q, ?_⟩
  unfold effDist at hy
  split_ifs at hy with c
  · obtain ⟨-, rfl⟩ := pyDiv_eq_ok.1 hy
    positivity
  · rw [pure_ok, ok_inj] at hy
    rw [← hy]
    have := not_lt.1 c
    norm_num
    linarith

/-! ### Coefficients -/

/-- Approximation of the distance dependent coefficients; the exact spreads are positive. -/
structure VarApx (F : Refining l α ε) (V : ∀ i, VarC (α i)) (v : VarC ℝ) : Prop where
  vmd : F.Approx (fun i => (V i).vmd) v.vmd
  sgtm : F.Approx (fun i => (V i).sgtm) v.sgtm
  sgtp : F.Approx (fun i => (V i).sgtp) v.sgtp
  sgtd : F.Approx (fun i => (V i).sgtd) v.sgtd
  tgtd : F.Approx (fun i => (V i).tgtd) v.tgtd
  sgl : F.Approx (fun i => (V i).sgl) v.sgl
  vs0 : F.Approx (fun i => (V i).vs0) v.vs0
  pos : 0 < v.sgtm ∧ 0 < v.sgtp ∧ 0 < v.sgtd ∧ 0 < v.vs0

theorem refine_sgl {D H W : ∀ i, α i} {d h w : ℝ} (hd : F.Approx D d) (hh : F.Approx H h) (hw : F.Approx W w) (wl : Bool) :
    Follows l F.Approx (fun i => sglOf wl (D i) (H i) (W i)) (sglOf wl d h w) := by
  unfold sglOf
  cases wl with
  | true => simp only [if_true]; exact Follows.pure (Refining.Approx.lit _ _ _)
  | false =>
    simp only [Bool.false_eq_true, if_false]
    have e : F.Approx (fun i => -D i / (50e3 : α i)) (-d / 50e3) := hd.neg.div (Refining.Approx.lit _ _ _) (by norm_num)
    have q : F.Approx (fun i => ((1.0 : α i) - 0.8 * PyNum.exp (-D i / 50e3)) * H i * W i) ((1.0 - 0.8 * PyNum.exp (-d / 50e3)) * h * w) :=
      (((Refining.Approx.lit _ _ _).sub ((Refining.Approx.lit _ _ _).mul e.exp)).mul hh).mul hw
    exact Follows.div ((Refining.Approx.lit _ _ _).mul q) (q.add (Refining.Approx.lit _ _ _))

/-- Relation of the coefficients above the upper knee to the knee. -/
def Knee (v : VarC ℝ) (c : Climate ℝ) : Prop := v.tgtd = (v.sgtp - v.sgtd) * c.zd

theorem refine_varCoef {C : ∀ i, Climate (α i)} {c : Climate ℝ} (hc : ClimApx F C c) {m : VarMode} (hm : m.ws = false) {G : ∀ i, FreqGain (α i)}
    {g : FreqGain ℝ} (hg : FreqApx F G g) {X D H W : ∀ i, α i} {x d h w : ℝ} (hx : F.Approx X x) (hd : F.Approx D d) (hh : F.Approx H h)
    (hw : F.Approx W w) (px : 0 < x) (pd : 0 < d) :
    Follows l (fun V v => VarApx F V v ∧ Knee v c) (fun i => varCoef (C i) m (G i) (X i) (D i) (H i) (W i)) (varCoef c m g x d h w) := by
  unfold varCoef
  refine Follows.bind (refine_effDist hd hx pd px) (fun E e _ he => ?_)
  obtain ⟨he, pe⟩ := he
  refine Follows.bind (refine_sgl hd hh hw m.wl) (fun S s _ hs => ?_)
  rw [hm]
  simp only [Bool.false_eq_true, if_false]
  obtain ⟨m1, m3, mc, md⟩ := hc.pm
  obtain ⟨p1, p3, pc, pd'⟩ := hc.pp
  have k1 := refine_curv hc.cv1 hc.cv2 hc.yv1 hc.yv2 hc.yv3 he hc.pv.1 hc.pv.2
  have k2 := (refine_curv hc.csm1 hc.csm2 hc.ysm1 hc.ysm2 hc.ysm3 he m1 m3).mul hg.gm
  have k3 := (refine_curv hc.csp1 hc.csp2 hc.ysp1 hc.ysp2 hc.ysp3 he p1 p3).mul hg.gp
  have q2 := mul_pos (curv_pos (y2 := c.ysm2) (y3 := c.ysm3) mc md m1 pe) hg.pos.1
  have q3 := mul_pos (curv_pos (y2 := c.ysp2) (y3 := c.ysp3) pc pd' p1 pe) hg.pos.2
  have e1 : F.Approx (fun i => -E i / (100e3 : α i)) (-e / 100e3) := he.neg.div (Refining.Approx.lit _ _ _) (by norm_num)
  refine Follows.pure ⟨⟨k1, k2, k3, k3.mul hc.csd1, (k3.sub (k3.mul hc.csd1)).mul hc.zd, hs,
    ((Refining.Approx.lit _ _ _).add ((Refining.Approx.lit _ _ _).mul e1.exp)).npow 2, q2, q3, mul_pos q3 hc.pd.1, ?_⟩, rfl⟩
  dsimp only
  rw [npow_real, rexp]
  positivity

/-! ### The dictionary -/

/-- The statistical keys of the dictionaries approximate the exact ones; situation variability is not eliminated. -/
structure StatApx (F : Refining l α ε) (P : ∀ i, PropSt (α i)) (p : PropSt ℝ) : Prop where
  lvar : ∀ᶠ i in l, (P i).lvar = p.lvar
  klim : OptApx l (EqApx l) (fun i => (P i).klim) p.klim
  mdvar : OptApx l (fun b x => EqApx l b x ∧ x < 20) (fun i => (P i).mdvar) p.mdvar
  clim : OptApx l (ClimApx F) (fun i => (P i).clim) p.clim
  vmode : OptApx l (fun b x => EqApx l b x ∧ x.ws = false) (fun i => (P i).vmode) p.vmode
  fgain : OptApx l (FreqApx F) (fun i => (P i).fgain) p.fgain
  dexa : OptApx l (fun b x => F.Approx b x ∧ 0 < x) (fun i => (P i).dexa) p.dexa
  varc : OptApx l (VarApx F) (fun i => (P i).varc) p.varc
  aref : OptApx l F.Approx (fun i => (P i).aref) p.aref
  dist : F.Approx (fun i => (P i).dist) p.dist
  dh : F.Approx (fun i => (P i).dh) p.dh
  wn : F.Approx (fun i => (P i).wn) p.wn
  he0 : F.Approx (fun i => (P i).he.x0) p.he.x0
  he1 : F.Approx (fun i => (P i).he.x1) p.he.x1
  pos : 0 < p.dist ∧ 0 < p.wn ∧ 0 < p.he.x0 ∧ 0 < p.he.x1

/-- The cached coefficients belong to the cached climate. -/
def Kneed (p : PropSt ℝ) : Prop := ∀ v c, p.varc = some v → p.clim = some c → Knee v c

theorem lvar_iff {P : ∀ i, PropSt (α i)} {p : PropSt ℝ} (h : StatApx F P p) (n : Int) : ∀ᶠ i in l, (n < (P i).lvar ↔ n < p.lvar) := by
  filter_upwards [h.lvar] with i hi
  rw [hi]

theorem refine_lookup {P : ∀ i, PropSt (α i)} {p : PropSt ℝ} (h : StatApx F P p) {K : ι → ℤ} {k : ℤ} (hk : EqApx l K k) (h1 : 1 ≤ k) (h7 : k ≤ 7) :
    Follows l (StatApx F) (fun i => (do
      let c ← pyGet climates (K i - 1)
      pure { P i with clim := some c } : Py (PropSt (α i)))) (do
      let c ← pyGet climates (k - 1)
      pure { p with clim := some c }) := by
  have key : Follows l (StatApx F) (fun i => (do
      let c ← pyGet climates (k - 1)
      pure { P i with clim := some c } : Py (PropSt (α i)))) (do
      let c ← pyGet climates (k - 1)
      pure { p with clim := some c }) := by
    refine Follows.bind (refine_climates (F := F) h1 h7) (fun C c _ hc => ?_)
    refine Follows.pure ?_
    exact ⟨h.lvar, h.klim, h.mdvar, OptApx.some hc, h.vmode, h.fgain, h.dexa, h.varc, h.aref, h.dist, h.dh, h.wn, h.he0, h.he1, h.pos⟩
  refine key.congr ?_
  filter_upwards [hk] with i hi
  rw [hi]

theorem refine_avarClimate {P : ∀ i, PropSt (α i)} {p : PropSt ℝ} (h : StatApx F P p) :
    Follows l (StatApx F) (fun i => avarClimate (P i)) (avarClimate p) := by
  unfold avarClimate
  refine Follows.ite (lvar_iff h 4) (fun _ => ?_) (fun _ => Follows.pure h)
  refine Follows.bind (Follows.need h.klim _) (fun K k hk' hk => ?_)
  have key : Follows l (StatApx F) (fun i => (do
      let p := if k ≤ 0 ∨ 7 < k then { P i with klim := some 5, kwx := max (P i).kwx 2 } else P i
      let klim ← need p.klim "klim"
      let c ← pyGet climates (klim - 1)
      pure { p with clim := some c } : Py (PropSt (α i)))) (do
      let p := if k ≤ 0 ∨ 7 < k then { p with klim := some 5, kwx := max p.kwx 2 } else p
      let klim ← need p.klim "klim"
      let c ← pyGet climates (klim - 1)
      pure { p with clim := some c }) := by
    by_cases bad : k ≤ 0 ∨ 7 < k
    · simp only [if_pos bad]
      refine Follows.bind (Follows.need (Q := EqApx l) (OptApx.some (Eventually.of_forall fun _ => rfl)) _) (fun K k' e hk' => ?_)
      rw [show need (some (5 : Int)) "klim" = .ok 5 from rfl, ok_inj] at e
      subst e
      refine refine_lookup (P := fun i => { P i with klim := some 5, kwx := max (P i).kwx 2 })
        (p := { p with klim := some 5, kwx := max p.kwx 2 }) ?_ hk' (by norm_num) (by norm_num)
      exact ⟨h.lvar, OptApx.some (Eventually.of_forall fun _ => rfl), h.mdvar, h.clim, h.vmode, h.fgain, h.dexa, h.varc, h.aref, h.dist, h.dh, h.wn, h.he0, h.he1, h.pos⟩
    · simp only [if_neg bad]
      push Not at bad
      refine Follows.bind (Follows.need h.klim _) (fun K' k' e hk'' => ?_)
      rw [hk', ok_inj] at e
      subst e
      exact refine_lookup h hk'' (by linarith [bad.1]) bad.2
  refine key.congr ?_
  filter_upwards [hk] with i hi
  rw [hi]

theorem decode_ws {md : ℤ} (h : md < 20) : (decodeMode md).1.ws = false := by
  unfold decodeMode
  simp only [show ¬ (20 ≤ md) by omega, decide_false]
  split_ifs <;> rfl

theorem refine_avarMode {P : ∀ i, PropSt (α i)} {p : PropSt ℝ} (h : StatApx F P p) :
    Follows l (StatApx F) (fun i => avarMode (P i)) (avarMode p) := by
  unfold avarMode
  refine Follows.ite (lvar_iff h 3) (fun _ => ?_) (fun _ => Follows.pure h)
  refine Follows.bind (Follows.need h.mdvar _) (fun K k _ hk => ?_)
  refine Follows.pure ?_
  refine ⟨h.lvar, h.klim, h.mdvar, h.clim, OptApx.some ⟨?_, decode_ws hk.2⟩, h.fgain, h.dexa, h.varc, h.aref, h.dist, h.dh, h.wn, h.he0, h.he1, h.pos⟩
  filter_upwards [hk.1] with i hi
  rw [hi]

theorem refine_avarFreq {P : ∀ i, PropSt (α i)} {p : PropSt ℝ} (h : StatApx F P p) :
    Follows l (StatApx F) (fun i => avarFreq (P i)) (avarFreq p) := by
  unfold avarFreq
  refine Follows.ite (lvar_iff h 2) (fun _ => ?_) (fun _ => Follows.pure h)
  refine Follows.bind (Follows.need h.clim _) (fun C c _ hc => ?_)
  refine Follows.bind (refine_freqGain hc h.wn) (fun G g _ hg => ?_)
  refine Follows.pure ?_
  exact ⟨h.lvar, h.klim, h.mdvar, h.clim, h.vmode, OptApx.some hg, h.dexa, h.varc, h.aref, h.dist, h.dh, h.wn, h.he0, h.he1, h.pos⟩

theorem refine_avarDexa {P : ∀ i, PropSt (α i)} {p : PropSt ℝ} (h : StatApx F P p) :
    Follows l (StatApx F) (fun i => avarDexa (P i)) (avarDexa p) := by
  unfold avarDexa
  refine Follows.ite (lvar_iff h 1) (fun _ => ?_) (fun _ => Follows.pure h)
  refine Follows.bind (refine_dexa h.he0 h.he1 h.wn h.pos.2.2.1 h.pos.2.2.2 h.pos.2.1) (fun X x _ hx => ?_)
  refine Follows.pure ?_
  exact ⟨h.lvar, h.klim, h.mdvar, h.clim, h.vmode, h.fgain, OptApx.some hx, h.varc, h.aref, h.dist, h.dh, h.wn, h.he0, h.he1, h.pos⟩

theorem refine_avarDist {P : ∀ i, PropSt (α i)} {p : PropSt ℝ} (h : StatApx F P p) :
    Follows l (fun P p => StatApx F P p ∧ Kneed p) (fun i => avarDist (P i)) (avarDist p) := by
  unfold avarDist
  refine Follows.bind (Follows.need h.dexa _) (fun X x _ hx => ?_)
  refine Follows.bind (Follows.need h.clim _) (fun C c hc' hc => ?_)
  refine Follows.bind (Follows.need h.fgain _) (fun G g _ hg => ?_)
  refine Follows.bind (Follows.need h.vmode _) (fun M m _ hm => ?_)
  have key := Follows.bind (Q' := fun P p => StatApx F P p ∧ Kneed p)
    (refine_varCoef hc hm.2 hg hx.1 h.dist h.dh h.wn hx.2 h.pos.1) (f := fun i v => (pure { P i with varc := some v, lvar := 0 } : Py (PropSt (α i))))
    (g := fun v => (pure { p with varc := some v, lvar := 0 } : Py (PropSt ℝ))) (fun V v _ hv => by
      refine Follows.pure ⟨⟨Eventually.of_forall fun _ => rfl, h.klim, h.mdvar, h.clim, h.vmode, h.fgain, h.dexa, OptApx.some hv.1, h.aref, h.dist, h.dh, h.wn, h.he0, h.he1, h.pos⟩, ?_⟩
      intro v' c' e1 e2
      obtain rfl := Option.some.inj e1
      have : p.clim = some c := by
        cases e : p.clim with
        | none => rw [e] at hc'; exact absurd hc' (by unfold need; simp)
        | some d => rw [e] at hc'; rw [show need (some d) "cv1" = .ok d from rfl, ok_inj] at hc'; rw [hc']
      change p.clim = some c' at e2
      rw [this] at e2
      obtain rfl := Option.some.inj e2
      exact hv.2)
  refine key.congr ?_
  filter_upwards [hm.1] with i hi
  rw [hi]

theorem refine_avarSetup {P : ∀ i, PropSt (α i)} {p : PropSt ℝ} (h : StatApx F P p) (hk : p.lvar ≤ 0 → Kneed p) :
    Follows l (fun P p => StatApx F P p ∧ Kneed p) (fun i => avarSetup (P i)) (avarSetup p) := by
  unfold avarSetup
  refine Follows.ite (lvar_iff h 0) (fun _ => ?_) (fun c => Follows.pure ⟨h, hk (not_lt.1 c)⟩)
  refine Follows.bind (refine_avarClimate h) (fun P1 p1 _ h1 => ?_)
  refine Follows.bind (refine_avarMode h1) (fun P2 p2 _ h2 => ?_)
  refine Follows.bind (refine_avarFreq h2) (fun P3 p3 _ h3 => ?_)
  refine Follows.bind (refine_avarDexa h3) (fun P4 p4 _ h4 => ?_)
  exact refine_avarDist h4

/-! ### The quantile -/

/-- The quantile once the spread in time is known. -/
def quantileAt {β : Type} [PyNum β] (kdv : Int) (v : VarC β) (aref zt zl zc sgt : β) : Py β := do
  let vs ← vsOf v sgt zt zl zc
  let (yr, sgc) ← yrSgc kdv v sgt zt zl vs
  soften (aref - v.vmd - yr - sgc * zc)

theorem avarQuantile_eq {β : Type} [PyNum β] (kdv : Int) (zd : β) (v : VarC β) (aref a b c : β) : avarQuantile kdv zd v aref a b c =
    (if (avarDeviates kdv a b c).1 < 0.0 then
      quantileAt kdv v aref (avarDeviates kdv a b c).1 (avarDeviates kdv a b c).2.1 (avarDeviates kdv a b c).2.2 v.sgtm
    else if (avarDeviates kdv a b c).1 ≤ zd then
      quantileAt kdv v aref (avarDeviates kdv a b c).1 (avarDeviates kdv a b c).2.1 (avarDeviates kdv a b c).2.2 v.sgtp
    else do
      let t ← v.tgtd /! (avarDeviates kdv a b c).1
      quantileAt kdv v aref (avarDeviates kdv a b c).1 (avarDeviates kdv a b c).2.1 (avarDeviates kdv a b c).2.2 (v.sgtd + t)) := by
  unfold avarQuantile quantileAt sgtOf
  obtain ⟨zt, zl, zc⟩ := avarDeviates kdv a b c
  dsimp only
  split_ifs
  · rw [pure_ok, ok_bind]
  · rw [pure_ok, ok_bind]
  · cases v.tgtd /! zt with
    | error e => rfl
    | ok t => rfl

theorem refine_soften {A : ∀ i, α i} {a : ℝ} (h : F.Approx A a) : Follows l F.Approx (fun i => soften (A i)) (soften a) := by
  unfold soften
  have m : Follows l F.Approx (fun i => (A i * (29.0 - A i)) /! (29.0 - 10.0 * A i)) ((a * (29.0 - a)) /! (29.0 - 10.0 * a)) :=
    Follows.div (h.mul ((Refining.Approx.lit _ _ _).sub h)) ((Refining.Approx.lit _ _ _).sub ((Refining.Approx.lit _ _ _).mul h))
  by_cases z : a = 0
  · subst z
    rw [if_neg (by norm_num)]
    refine Follows.choose ?_ (Follows.pure h)
    have : ((0 : ℝ) * (29.0 - 0)) /! (29.0 - 10.0 * 0) = pure 0 := by
      rw [pyDiv_ok (by norm_num), pure_ok]
      norm_num
    rwa [this] at m
  · refine Follows.ite ?_ (fun _ => m) (fun _ => Follows.pure h)
    rw [zero_lit]
    exact h.lt_iff Follows.zero z

theorem refine_vs {V : ∀ i, VarC (α i)} {v : VarC ℝ} (hv : VarApx F V v) {S A B C : ∀ i, α i} {s a b c : ℝ} (hs : F.Approx S s) (ha : F.Approx A a)
    (hb : F.Approx B b) (hc : F.Approx C c) :
    Follows l (fun b y => F.Approx b y ∧ 0 < y) (fun i => vsOf (V i) (S i) (A i) (B i) (C i)) (vsOf v s a b c) := by
  unfold vsOf
  refine Follows.bind (Follows.div ((hs.mul ha).npow 2) ((Refining.Approx.lit _ _ _).add (hc.npow 2))) (fun X x hx' hx => ?_)
  refine Follows.bind (Follows.div ((hv.sgl.mul hb).npow 2) ((Refining.Approx.lit _ _ _).add (hc.npow 2))) (fun Y y hy' hy => ?_)
  refine Follows.pure ⟨(hv.vs0.add hx).add hy, ?_⟩
  obtain ⟨-, rfl⟩ := pyDiv_eq_ok.1 hx'
  obtain ⟨-, rfl⟩ := pyDiv_eq_ok.1 hy'
  have := hv.pos.2.2.2
  simp only [npow_real]
  positivity

theorem refine_yrSgc (kdv : Int) {V : ∀ i, VarC (α i)} {v : VarC ℝ} (hv : VarApx F V v) {S A B W : ∀ i, α i} {s a b w : ℝ} (hs : F.Approx S s)
    (ha : F.Approx A a) (hb : F.Approx B b) (hw : F.Approx W w) (ps : 0 < s) (pw : 0 < w) :
    Follows l (fun b y => F.Approx (fun i => (b i).1) y.1 ∧ F.Approx (fun i => (b i).2) y.2) (fun i => yrSgc kdv (V i) (S i) (A i) (B i) (W i)) (yrSgc kdv v s a b w) := by
  unfold yrSgc
  have e1 : npow s 2 + npow v.sgl 2 + w ≠ 0 := by simp only [npow_real]; positivity
  have e2 : npow v.sgl 2 + w ≠ 0 := by simp only [npow_real]; positivity
  have e3 : npow s 2 + npow v.sgl 2 ≠ 0 := by simp only [npow_real]; positivity
  refine Follows.ite (Eventually.of_forall fun _ => Iff.rfl) (fun _ => ?_) (fun _ => ?_)
  · refine Follows.bind (Follows.sqrt (((hs.npow 2).add (hv.sgl.npow 2)).add hw) e1) (fun X x _ hx => ?_)
    exact Follows.pure ⟨Refining.Approx.lit _ _ _, hx⟩
  refine Follows.ite (Eventually.of_forall fun _ => Iff.rfl) (fun _ => ?_) (fun _ => ?_)
  · refine Follows.bind (Follows.sqrt ((hv.sgl.npow 2).add hw) e2) (fun X x _ hx => ?_)
    exact Follows.pure ⟨hs.mul ha, hx⟩
  refine Follows.ite (Eventually.of_forall fun _ => Iff.rfl) (fun _ => ?_) (fun _ => ?_)
  · refine Follows.bind (Follows.sqrt ((hs.npow 2).add (hv.sgl.npow 2)) e3) (fun X x _ hx => ?_)
    refine Follows.bind (Follows.sqrt hw pw.ne') (fun Y y _ hy => ?_)
    exact Follows.pure ⟨hx.mul ha, hy⟩
  · refine Follows.bind (Follows.sqrt hw pw.ne') (fun Y y _ hy => ?_)
    exact Follows.pure ⟨(hs.mul ha).add (hv.sgl.mul hb), hy⟩

theorem refine_quantileAt (kdv : Int) {V : ∀ i, VarC (α i)} {v : VarC ℝ} (hv : VarApx F V v) {R S A B C : ∀ i, α i} {r s a b c : ℝ} (hr : F.Approx R r)
    (hs : F.Approx S s) (ha : F.Approx A a) (hb : F.Approx B b) (hc : F.Approx C c) (ps : 0 < s) :
    Follows l F.Approx (fun i => quantileAt kdv (V i) (R i) (A i) (B i) (C i) (S i)) (quantileAt kdv v r a b c s) := by
  unfold quantileAt
  refine Follows.bind (refine_vs hv hs ha hb hc) (fun W w _ hw => ?_)
  refine Follows.bind (refine_yrSgc kdv hv hs ha hb hw.1 ps hw.2) (fun Y y _ hy => ?_)
  exact refine_soften (((hr.sub hv.vmd).sub hy.1).sub (hy.2.mul hc))

/-- At the median the spread in time does not matter. -/
theorem quantileAt_median (kdv : Int) (v : VarC ℝ) (pv : 0 < v.vs0) (r a b c s s' : ℝ) (hz : (avarDeviates kdv a b c).1 = 0) :
    quantileAt kdv v r (avarDeviates kdv a b c).1 (avarDeviates kdv a b c).2.1 (avarDeviates kdv a b c).2.2 s =
      quantileAt kdv v r (avarDeviates kdv a b c).1 (avarDeviates kdv a b c).2.1 (avarDeviates kdv a b c).2.2 s' := by
  have d1 : ∀ x : ℝ, (7.8 : ℝ) + npow x 2 ≠ 0 := by intro x; simp only [npow_real]; positivity
  have d2 : ∀ x : ℝ, (24.0 : ℝ) + npow x 2 ≠ 0 := by intro x; simp only [npow_real]; positivity
  have ev : ∀ s b c : ℝ, vsOf v s 0 b c = .ok (v.vs0 + (v.sgl * b) ^ 2 / (24 + c ^ 2)) := by
    intro s b c
    unfold vsOf
    rw [pyDiv_ok (d1 c), ok_bind, pyDiv_ok (d2 c), ok_bind, pure_ok]
    simp only [npow_real]
    norm_num
  have ps : ∀ b c : ℝ, 0 < v.vs0 + (v.sgl * b) ^ 2 / (24 + c ^ 2) := fun b c => by positivity
  have sq : ∀ x : ℝ, 0 ≤ x → mathSqrt x = .ok √x := fun x hx => mathSqrt_eq_ok.2 ⟨hx, rfl⟩
  rw [hz]
  unfold avarDeviates at hz ⊢
  unfold quantileAt
  simp only [ev, ok_bind]
  generalize hW : (v.vs0 + _ : ℝ) = W
  have pW : 0 < W := by rw [← hW]; exact ps _ _
  unfold yrSgc
  split_ifs at hz ⊢ with h0 h1 h2
  · dsimp only at hz ⊢
    subst hz
    simp only [npow_real]
    rw [sq _ (by positivity), ok_bind, sq _ (by positivity), ok_bind, pure_ok, ok_bind, pure_ok, ok_bind]
    dsimp only
    rw [mul_zero, mul_zero]
  · dsimp only at hz ⊢
    rw [mul_zero, mul_zero]
  · dsimp only at hz ⊢
    simp only [npow_real]
    rw [sq _ (by positivity), ok_bind, sq _ (by positivity), ok_bind, sq _ (by positivity), ok_bind, pure_ok, ok_bind, ok_bind, pure_ok, ok_bind]
    dsimp only
    rw [mul_zero, mul_zero]
  · rw [mul_zero, mul_zero]

theorem refine_avarQuantile (kdv : Int) {C : ∀ i, Climate (α i)} {c : Climate ℝ} (hc : ClimApx F C c) {V : ∀ i, VarC (α i)} {v : VarC ℝ} (hv : VarApx F V v)
    (hk : Knee v c) {R X Y Z : ∀ i, α i} {r x y z : ℝ} (hr : F.Approx R r) (hx : F.Approx X x) (hy : F.Approx Y y) (hz : F.Approx Z z) :
    Follows l F.Approx (fun i => avarQuantile kdv (C i).zd (V i) (R i) (X i) (Y i) (Z i)) (avarQuantile kdv c.zd v r x y z) := by
  have dev : F.Approx (fun i => (avarDeviates kdv (X i) (Y i) (Z i)).1) (avarDeviates kdv x y z).1 ∧
      F.Approx (fun i => (avarDeviates kdv (X i) (Y i) (Z i)).2.1) (avarDeviates kdv x y z).2.1 ∧
      F.Approx (fun i => (avarDeviates kdv (X i) (Y i) (Z i)).2.2) (avarDeviates kdv x y z).2.2 := by
    unfold avarDeviates
    split_ifs
    · exact ⟨hz, hz, hz⟩
    · exact ⟨hx, hz, hz⟩
    · exact ⟨hx, hx, hz⟩
    · exact ⟨hx, hy, hz⟩
  obtain ⟨dt, dl, dc⟩ := dev
  obtain ⟨pm, pp, pd, p0⟩ := hv.pos
  obtain ⟨pc, pz⟩ := hc.pd
  simp only [avarQuantile_eq]
  have low := refine_quantileAt kdv hv hr hv.sgtm dt dl dc pm
  have mid := refine_quantileAt kdv hv hr hv.sgtp dt dl dc pp
  have med := fun s s' => quantileAt_median kdv v p0 r x y z s s'
  generalize ht : (avarDeviates kdv x y z).1 = t at *
  generalize (avarDeviates kdv x y z).2.1 = u at *
  generalize (avarDeviates kdv x y z).2.2 = w at *
  have up : 0 < t → c.zd ≤ t → Follows l F.Approx (fun i => (do
      let q ← (V i).tgtd /! (avarDeviates kdv (X i) (Y i) (Z i)).1
      quantileAt kdv (V i) (R i) (avarDeviates kdv (X i) (Y i) (Z i)).1 (avarDeviates kdv (X i) (Y i) (Z i)).2.1 (avarDeviates kdv (X i) (Y i) (Z i)).2.2
        ((V i).sgtd + q) : Py (α i))) (do
      let q ← v.tgtd /! t
      quantileAt kdv v r t u w (v.sgtd + q)) := by
    intro pt ht
    refine Follows.bind (Follows.div hv.tgtd dt) (fun Q q hq' hq => ?_)
    refine refine_quantileAt kdv hv hr (hv.sgtd.add hq) dt dl dc ?_
    obtain ⟨-, rfl⟩ := pyDiv_eq_ok.1 hq'
    unfold Knee at hk
    rw [hk]
    have e : v.sgtd + (v.sgtp - v.sgtd) * c.zd / t = (v.sgtd * (t - c.zd) + v.sgtp * c.zd) / t := by field_simp; ring
    rw [e]
    have := sub_nonneg.2 ht
    positivity
  have z0 : (0.0 : ℝ) = 0 := zero_lit
  rcases lt_trichotomy t 0 with h | h | h
  · refine Follows.ite ?_ (fun _ => low) (fun c => absurd h (by rwa [z0] at c))
    rw [z0]; exact dt.lt_iff Follows.zero h.ne
  · rw [if_neg (by rw [z0, h]; exact lt_irrefl _), if_pos (by rw [h]; exact pz.le)]
    refine Follows.choose ?_ ?_
    · rwa [med v.sgtm v.sgtp h] at low
    · refine mid.congr ?_
      filter_upwards [dt.le_iff hc.zd (by rw [h]; exact pz.ne)] with i hi
      rw [if_pos (hi.2 (by rw [h]; exact pz.le))]
  · refine Follows.ite (by rw [z0]; exact dt.lt_iff Follows.zero h.ne') (fun c => absurd h (by rw [z0] at c; exact not_lt.2 c.le)) (fun _ => ?_)
    by_cases tie : t = c.zd
    · rw [if_pos tie.le]
      refine Follows.choose mid ?_
      have := up h tie.ge
      rw [pyDiv_ok h.ne', ok_bind] at this
      unfold Knee at hk
      have e : v.sgtd + v.tgtd / t = v.sgtp := by
        rw [hk, ← tie]; field_simp; ring
      rwa [e] at this
    · exact Follows.ite (dt.le_iff hc.zd tie) (fun _ => mid) (fun c => up h (not_le.1 c).le)

/-- A call of `avar`. -/
theorem refine_avar {P : ∀ i, PropSt (α i)} {p : PropSt ℝ} (h : StatApx F P p) (hk : p.lvar ≤ 0 → Kneed p) {X Y Z : ∀ i, α i} {x y z : ℝ}
    (hx : F.Approx X x) (hy : F.Approx Y y) (hz : F.Approx Z z) :
    Follows l (fun b q => F.Approx (fun i => (b i).1) q.1 ∧ StatApx F (fun i => (b i).2) q.2 ∧ Kneed q.2) (fun i => avar (X i) (Y i) (Z i) (P i)) (avar x y z p) := by
  unfold avar
  refine Follows.bind (refine_avarSetup h hk) (fun P1 p1 _ h1 => ?_)
  obtain ⟨h1, k1⟩ := h1
  refine Follows.bind (Follows.need h1.vmode _) (fun M m _ hm => ?_)
  refine Follows.bind (Follows.need (by exact h1.clim) _) (fun C c hc' hc => ?_)
  refine Follows.bind (Follows.need (by exact h1.varc) _) (fun V v hv' hv => ?_)
  refine Follows.bind (Follows.need (by exact h1.aref) _) (fun R r _ hr => ?_)
  have kn : Knee v c := k1 v c (need_eq_ok.1 hv') (need_eq_ok.1 hc')
  have key := refine_avarQuantile m.kdv hc hv kn hr hx hy hz
  refine Follows.bind (key.congr ?_) (fun A a _ ha => ?_)
  · filter_upwards [hm.1] with i hi
    rw [hi]
  · refine Follows.pure ⟨ha, ?_, k1⟩
    exact ⟨h1.lvar, h1.klim, h1.mdvar, h1.clim, h1.vmode, h1.fgain, h1.dexa, h1.varc, h1.aref, h1.dist, h1.dh, h1.wn, h1.he0, h1.he1, h1.pos⟩

end Itm
