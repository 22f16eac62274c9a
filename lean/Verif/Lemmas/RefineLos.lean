import Verif.Lemmas.RefineDiff
import Verif.Props.C57

/-! The line-of-sight fit in arithmetics of growing precision. -/

namespace Itm
open Itm.Spec Filter Asymptotics Topology

variable {ι : Type} {l : Filter ι} {α : ι → Type} [∀ i, PyNum (α i)] {ε : ι → ℝ} {F : Refining l α ε}

/-- Approximation of a complex number. -/
structure CxApx (F : Refining l α ε) (Z : ∀ i, Cx (α i)) (z : Cx ℝ) : Prop where
  re : F.Approx (fun i => (Z i).re) z.re
  im : F.Approx (fun i => (Z i).im) z.im

theorem CxApx.abs {Z : ∀ i, Cx (α i)} {z : Cx ℝ} (h : CxApx F Z z) (hz : z.normSq ≠ 0) : F.Approx (fun i => (Z i).abs) z.abs :=
  refine_cxabs h.re h.im hz

theorem CxApx.smul {Z : ∀ i, Cx (α i)} {z : Cx ℝ} {T : ∀ i, α i} {t : ℝ} (h : CxApx F Z z) (ht : F.Approx T t) : CxApx F (fun i => (Z i).smul (T i)) (z.smul t) :=
  ⟨h.re.mul ht, h.im.mul ht⟩

theorem CxApx.add {Z W : ∀ i, Cx (α i)} {z w : Cx ℝ} (h : CxApx F Z z) (k : CxApx F W w) : CxApx F (fun i => (Z i).add (W i)) (z.add w) :=
  ⟨h.re.add k.re, h.im.add k.im⟩

theorem CxApx.sub {Z W : ∀ i, Cx (α i)} {z w : Cx ℝ} (h : CxApx F Z z) (k : CxApx F W w) : CxApx F (fun i => (Z i).sub (W i)) (z.sub w) :=
  ⟨h.re.sub k.re, h.im.sub k.im⟩

/-- Two ways of computing the same, with any choice between them. -/
theorem CxApx.choose {c : ι → Prop} [∀ i, Decidable (c i)] {m n : ∀ i, Py (Cx (α i))} {r : Py (Cx ℝ)} (h : Follows l (CxApx F) m r) (k : Follows l (CxApx F) n r) :
    Follows l (CxApx F) (fun i => if c i then m i else n i) r := by
  intro x hx
  obtain ⟨a, ha, qa⟩ := h x hx
  obtain ⟨b, hb, qb⟩ := k x hx
  refine ⟨fun i => if c i then a i else b i, ?_, ?_, ?_⟩
  · filter_upwards [ha, hb] with i h1 h2
    split_ifs <;> assumption
  · exact (qa.re.choose (c := c) qb.re).congr (Eventually.of_forall fun i => by split_ifs <;> rfl)
  · exact (qa.im.choose (c := c) qb.im).congr (Eventually.of_forall fun i => by split_ifs <;> rfl)

theorem CxApx.div {Z W : ∀ i, Cx (α i)} {z w : Cx ℝ} (h : CxApx F Z z) (k : CxApx F W w) :
    Follows l (CxApx F) (fun i => (Z i).div (W i)) (z.div w) := by
  obtain ⟨h1, h2⟩ := h
  obtain ⟨k1, k2⟩ := k
  have A : w.re ≠ 0 → Follows l (CxApx F) (fun i => do
      let ratio ← (W i).im /! (W i).re
      let denom := (W i).re + (W i).im * ratio
      let re ← ((Z i).re + (Z i).im * ratio) /! denom
      let im ← ((Z i).im - (Z i).re * ratio) /! denom
      .ok ⟨re, im⟩) (cxQuot z w) := fun h0 => by
    rw [← smith_re z h0]
    refine Follows.bind (Follows.div (F := F) k2 k1) (fun b s hs hb => ?_)
    refine Follows.bind (Follows.div (F := F) (h1.add (h2.mul hb)) (k1.add (k2.mul hb))) (fun b1 s hs hb1 => ?_)
    refine Follows.bind (Follows.div (F := F) (h2.sub (h1.mul hb)) (k1.add (k2.mul hb))) (fun b2 s hs hb2 => ?_)
    exact Follows.ok ⟨hb1, hb2⟩
  have B : w.im ≠ 0 → Follows l (CxApx F) (fun i => do
      let ratio ← (W i).re /! (W i).im
      let denom := (W i).re * ratio + (W i).im
      let re ← ((Z i).re * ratio + (Z i).im) /! denom
      let im ← ((Z i).im * ratio - (Z i).re) /! denom
      .ok ⟨re, im⟩) (cxQuot z w) := fun h0 => by
    rw [← smith_im z h0]
    refine Follows.bind (Follows.div (F := F) k1 k2) (fun b s hs hb => ?_)
    refine Follows.bind (Follows.div (F := F) ((h1.mul hb).add h2) ((k1.mul hb).add k2)) (fun b1 s hs hb1 => ?_)
    refine Follows.bind (Follows.div (F := F) ((h2.mul hb).sub h1) ((k1.mul hb).add k2)) (fun b2 s hs hb2 => ?_)
    exact Follows.ok ⟨hb1, hb2⟩
  rw [cxdiv_quot]
  unfold Cx.div
  by_cases hr : w.re = 0
  · by_cases hi : w.im = 0
    · intro x hx
      exfalso
      unfold cxQuot at hx
      rw [normSq_real, hr, hi] at hx
      obtain ⟨_, hx, _⟩ := bind_eq_ok.1 hx
      exact (pyDiv_eq_ok.1 hx).1 (by norm_num)
    · refine (B hi).congr ?_
      have hn : PyNum.abs w.im ≠ PyNum.abs w.re := by
        rw [rabs, rabs, hr, abs_zero]; exact abs_ne_zero.2 hi
      filter_upwards [k2.abs.le_iff k1.abs hn] with i hi'
      rw [if_neg (fun q => ?_)]
      have := hi'.1 q
      rw [rabs, rabs, hr, abs_zero] at this
      exact hi (abs_eq_zero.1 (le_antisymm this (abs_nonneg _)))
  · by_cases hi : w.im = 0
    · refine (A hr).congr ?_
      have hn : PyNum.abs w.im ≠ PyNum.abs w.re := by
        rw [rabs, rabs, hi, abs_zero]; exact (abs_ne_zero.2 hr).symm
      filter_upwards [k2.abs.le_iff k1.abs hn] with i hi'
      rw [if_pos (hi'.2 ?_)]
      rw [rabs, rabs, hi, abs_zero]
      exact abs_nonneg _
    · exact CxApx.choose (A hr) (B hi)

theorem refine_ray {I : ∀ i, LrIn (α i)} {x : LrIn ℝ} (hi : InApx F I x) (a : Adm x) (pdh : 0 < x.dh) {D : ∀ i, α i} {d : ℝ} (hD : F.Approx D d) (pd : 0 < d)
    {P : ∀ i, PropSt (α i)} {p : PropSt ℝ} (hP : ∀ i, inp (P i) = I i) (hp : inp p = x) (c : (linkOf p).RayClear d) :
    Follows l (fun b y => CxApx F (fun i => (b i).1) y.1 ∧ F.Approx (fun i => (b i).2) y.2) (fun i => alosRay (D i) (P i)) (alosRay d p) := by
  obtain rfl : (fun i => inp (P i)) = I := funext hP
  subst hp
  obtain ⟨g0, g1, e0, e1, d0, d1, t0, t1, w, dh, en, gm, zr, zi⟩ := hi
  have h0 : 0 < p.he.x0 := a.he0
  have h1 : 0 < p.he.x1 := a.he1
  change F.Approx (fun i => (P i).he.x0) p.he.x0 at e0
  change F.Approx (fun i => (P i).he.x1) p.he.x1 at e1
  change F.Approx (fun i => (P i).wn) p.wn at w
  change F.Approx (fun i => (P i).zgnd.re) p.zgnd.re at zr
  change F.Approx (fun i => (P i).zgnd.im) p.zgnd.im at zi
  unfold alosRay
  have rq := refine_dhAt dh hD
  have pq := dhAt_pos pdh pd.le
  have r16 : F.Approx (fun i => (1.0 - 0.8 * PyNum.exp (-D i / 50e3)) * (inp (P i)).dh / 16.0) (dhAt (inp p).dh d / 16.0) :=
    rq.div (Refining.Approx.lit _ _ _) (by norm_num)
  refine Follows.bind (Follows.pow r16 (Refining.Approx.lit _ _ _) (by positivity)) (fun b2 s hs hb2 => ?_)
  have es : s = (dhAt (inp p).dh d / 16.0) ^ (0.25 : ℝ) := (pyPow_eq_ok.1 hs).2.2
  have rs : F.Approx _ (0.78 * dhAt (inp p).dh d * PyNum.exp (-s)) := ((Refining.Approx.lit (F := F) 78 true 2).mul rq).mul hb2.neg.exp
  have q : F.Approx (fun i => (P i).he.x0 + (P i).he.x1) (p.he.x0 + p.he.x1) := e0.add e1
  have pr : npow d 2 + npow (p.he.x0 + p.he.x1) 2 ≠ 0 := by rw [npow_real, npow_real]; positivity
  refine Follows.bind (Follows.sqrt ((hD.npow 2).add (q.npow 2)) pr) (fun b3 s3 hs3 hb3 => ?_)
  refine Follows.bind (Follows.div q hb3) (fun sp sps hs4 hsp => ?_)
  have eg : sps = grazing p.he.x0 p.he.x1 d := by
    rw [(pyDiv_eq_ok.1 hs4).2, (mathSqrt_eq_ok.1 hs3).2, npow_real, npow_real]; rfl
  have z1 : CxApx F (fun i => (⟨sp i, 0.0⟩ : Cx (α i))) ⟨sps, 0.0⟩ := ⟨hsp, Refining.Approx.lit _ _ _⟩
  have z2 : CxApx F (fun i => (P i).zgnd) p.zgnd := ⟨zr, zi⟩
  refine Follows.bind ((z1.sub z2).div (z1.add z2)) (fun R r hr hR => ?_)
  have re := hR.smul ((Refining.Approx.lit (F := F) 100 true 1).pyMin ((w.mul rs).mul hsp)).neg.exp
  -- the reflection coefficient
  have eR : (r.smul (PyNum.exp (-(pyMin 10.0 (p.wn * (0.78 * dhAt (inp p).dh d * PyNum.exp (-s)) * sps))))).toC = (linkOf p).ground d := by
    rw [toC_smul, toC_div hr, toC_sub, toC_add, toC_real, eg, es, pyMin_real]
    unfold Link.ground reflection terrainSigma irregularity dhAt
    simp only [rexp]
    have l1 : (10.0 : ℝ) = 10 := by norm_num
    have l2 : (16.0 : ℝ) = 16 := by norm_num
    have l3 : (0.25 : ℝ) = 1 / 4 := by norm_num
    have l4 : (50e3 : ℝ) = 50000 := by norm_num
    have l5 : (1.0 : ℝ) = 1 := by norm_num
    rw [l1, l2, l3, l4, l5]
    rfl
  change F.Approx _ (dhAt (inp p).dh d) at rq
  generalize hv : r.smul (PyNum.exp (-(pyMin 10.0 (p.wn * (0.78 * dhAt (inp p).dh d * PyNum.exp (-s)) * sps)))) = v at re eR
  have hv' : r.smul (PyNum.exp (-(pyMin 10.0 (p.wn * (0.78 * ((1.0 - 0.8 * PyNum.exp (-d / 50e3)) * p.dh) * PyNum.exp (-s)) * sps)))) = v := hv
  dsimp only
  rw [hv']
  have en2 : npow v.abs 2 = ‖(linkOf p).ground d‖ ^ 2 := by rw [npow_real, ← eR, toC_norm]
  -- what follows the choice of the reflection coefficient
  have tail : ∀ {R2 : ∀ i, Cx (α i)} {r2 : Cx ℝ}, CxApx F R2 r2 →
      Follows l (fun b y => CxApx F (fun i => (b i).1) y.1 ∧ F.Approx (fun i => (b i).2) y.2)
        (fun i => (do
          let q ← (P i).wn * (P i).he.x0 * (P i).he.x1 * 2.0 /! D i
          if 1.57 < q then do
            let t ← 2.4649 /! q
            let q ← pure (3.14 - t)
            pure (R2 i, q)
          else do
            let q ← pure q
            pure (R2 i, q) : Py (Cx (α i) × α i)))
        (do
          let q ← p.wn * p.he.x0 * p.he.x1 * 2.0 /! d
          if 1.57 < q then do
            let t ← 2.4649 /! q
            let q ← pure (3.14 - t)
            pure (r2, q)
          else do
            let q ← pure q
            pure (r2, q)) := by
    intro R2 r2 hR2
    refine Follows.bind (Follows.div (F := F) (by appr) hD) (fun b6 s6 hs6 hb6 => ?_)
    obtain ⟨-, rfl⟩ := pyDiv_eq_ok.1 hs6
    refine Follows.ite (Refining.Approx.lt_iff (Refining.Approx.lit _ _ _) hb6 ?_) (fun _ => ?_) (fun _ => ?_)
    · intro e
      apply c.phase
      rw [e]
      change 2 * p.wn * p.he.x0 * p.he.x1 / d = _
      congr 1
      norm_num; ring
    · refine Follows.bind (Follows.div (F := F) (Refining.Approx.lit _ _ _) hb6) (fun b8 s8 hs8 hb8 => ?_)
      exact Follows.pure ⟨hR2, (Refining.Approx.lit _ _ _).sub hb8⟩
    · exact Follows.pure ⟨hR2, hb6⟩
  by_cases hz : v.normSq = 0
  · -- no reflected ray: the exact call fails
    intro y hy
    exfalso
    have e0 : npow v.abs 2 = 0 := by rw [npow_real, abs_sq, hz]
    rw [e0, if_pos (Or.inl (by norm_num))] at hy
    obtain ⟨_, h1, _⟩ := bind_eq_ok.1 hy
    exact (pyDiv_eq_ok.1 h1).1 rfl
  have ra := (re.abs hz).npow 2
  refine Follows.ite (ev_or (ra.lt_iff (Refining.Approx.lit _ _ _) ?_) (ra.lt_iff hsp ?_)) (fun _ => ?_) (fun _ => ?_)
  · rw [en2]; intro e; apply c.quarter; rw [e]; norm_num
  · rw [en2, eg]; exact c.grazing
  · refine Follows.bind (Follows.div hsp ra) (fun b4 s4 hs4 hb4 => ?_)
    refine Follows.bind (Follows.sqrt hb4 ?_) (fun b5 s5 hs5 hb5 => ?_)
    · have hp := (spsR_range h0 h1 pd).1
      have : sps = spsR p.he d := eg
      rw [(pyDiv_eq_ok.1 hs4).2]
      exact div_ne_zero (by rw [this]; exact hp.ne') (pyDiv_eq_ok.1 hs4).1
    · exact tail (re.smul hb5)
  · exact tail re

theorem refine_alos {I : ∀ i, LrIn (α i)} {x : LrIn ℝ} (hi : InApx F I x) (a : Adm x) (pdh : 0 < x.dh) {D : ∀ i, α i} {d : ℝ} (hD : F.Approx D d) (pd : 0 < d)
    {P : ∀ i, PropSt (α i)} {p : PropSt ℝ} (hP : ∀ i, inp (P i) = I i) (hp : inp p = x) {L : ∀ i, DiffLine (α i)} {y : DiffLine ℝ}
    (hL : ∀ i, (P i).line = some (L i)) (hy : p.line = some y) (hl : LinApx F L y) (c : (linkOf p).RayClear d) :
    Follows l F.Approx (fun i => alos (D i) (P i)) (alos d p) := by
  obtain ⟨l1, l2, l3, l4⟩ := hl
  unfold alos alosExt alosPlane
  simp only [hL, hy, need, ok_bind, bind_assoc, pure_ok]
  refine Follows.bind (refine_ray hi a pdh hD pd hP hp c) (fun b r hr hb => ?_)
  obtain ⟨h1, h2⟩ := hb
  have z1 : CxApx F (fun i => (⟨PyNum.cos (b i).2, -(PyNum.sin (b i).2)⟩ : Cx (α i))) ⟨PyNum.cos r.2, -(PyNum.sin r.2)⟩ := ⟨h2.cos, h2.sin.neg⟩
  have z2 := z1.add h1
  by_cases hz : (Cx.add ⟨PyNum.cos r.2, -(PyNum.sin r.2)⟩ r.1).normSq = 0
  · intro v hv
    exfalso
    obtain ⟨_, h1, _⟩ := bind_eq_ok.1 hv
    have := (npLog_eq_ok.1 h1).1
    rw [npow_real, abs_sq, hz] at this
    exact lt_irrefl _ this
  refine Follows.bind (Follows.log ((z2.abs hz).npow 2)) (fun b1 s hs hb1 => ?_)
  refine Follows.ok ?_
  appr

theorem zero_exact (F : Refining l α ε) (i : ι) : (F.arith i).fin (0.0 : α i) ∧ (F.arith i).val (0.0 : α i) = 0 := by
  have := (F.arith i).whole 0 true 1 0 (by norm_num) (by have := F.pos i; simp only [Int.cast_zero, abs_zero]; positivity)
  simpa using this

/-- A quotient of zero is recognized as zero. -/
theorem zero_div_eq {b : ∀ i, α i} {y : ℝ} (h : F.Approx b y) (hy : y ≠ 0) : ∀ᶠ i in l, pyEq ((0.0 : α i) / b i) 0.0 := by
  filter_upwards [h.1, h.ne_zero hy] with i h1 h2
  obtain ⟨z1, z2⟩ := zero_exact F i
  have v := (F.arith i).zdiv _ _ z1 h1 z2 h2
  have f := ((F.arith i).div _ _ z1 h1 h2 (by rw [z2, zero_div, abs_zero]; have := F.pos i; positivity)).1
  exact ⟨((F.arith i).le _ _ f z1).2 (by rw [v, z2]), ((F.arith i).le _ _ z1 f).2 (by rw [v, z2])⟩

/-- A maximum with zero is recognized as positive or zero. -/
theorem lt_max_iff {f : ∀ i, α i} {x : ℝ} (h : F.Approx f x) (hx : x ≠ 0) : ∀ᶠ i in l, ((0.0 : α i) < pyMax 0.0 (f i) ↔ (0.0 : ℝ) < pyMax 0.0 x) := by
  have e : ((0.0 : ℝ) < pyMax 0.0 x) ↔ 0 < x := by rw [pyMax_real, zero_lit]; simp
  filter_upwards [(Follows.zero (F := F)).lt_iff h hx.symm] with i hi
  obtain ⟨z1, z2⟩ := zero_exact F i
  rw [e, ← hi]
  unfold pyMax
  split_ifs with c
  · rfl
  · exact ⟨fun q => absurd (((F.arith i).lt _ _ z1 z1).1 q) (lt_irrefl _), fun q => absurd q c⟩

/-- A nonnegative difference divided by a number, replaced by another value when it is zero. -/
theorem refine_repair {u b : ∀ i, α i} {x y : ℝ} (hu : F.Approx u x) (hb : F.Approx b y) (hx : x ≠ 0) {β : ι → Type} {γ : Type} {Q : (∀ i, β i) → γ → Prop}
    {m n : ∀ i, α i → Py (β i)} {r s : ℝ → Py γ} (h1 : x < 0 → y ≠ 0 → ∀ v, F.Approx v 0 → Follows l Q (fun i => m i (v i)) (r 0))
    (h2 : 0 < x → y ≠ 0 → ∀ v, F.Approx v (x / y) → Follows l Q (fun i => n i (v i)) (s (x / y))) :
    Follows l Q (fun i => do let k ← (pyMax (u i) 0.0) /! b i; if pyEq k 0.0 then m i k else n i k)
      (do let k ← (pyMax x 0.0) /! y; if pyEq k 0.0 then r k else s k) := by
  by_cases hy : y = 0
  · intro w hw
    obtain ⟨_, h1, _⟩ := bind_eq_ok.1 hw
    exact absurd hy (pyDiv_eq_ok.1 h1).1
  rcases lt_or_gt_of_ne hx with hl | hl
  · have e : (do let k ← (pyMax x 0.0) /! y; if pyEq k 0.0 then r k else s k) = r 0 := by
      rw [pyMax_real, zero_lit, max_eq_right hl.le, pyDiv_ok hy, ok_bind, zero_div, if_pos (pyEq_real.2 rfl)]
    rw [e]
    have ap : F.Approx (fun i => (0.0 : α i) / b i) 0 := by
      have := (Follows.zero (F := F)).div hb hy
      rwa [zero_div] at this
    refine (h1 hl hy _ ap).congr ?_
    filter_upwards [hu.lt_iff Follows.zero hx, hb.pyEq_not Follows.zero hy, zero_div_eq hb hy] with i e1 e2 e3
    unfold pyMax pyDiv
    rw [if_pos (e1.2 hl), if_neg e2, ok_bind, if_pos e3]
  · have nz : x / y ≠ 0 := div_ne_zero hx hy
    have e : (do let k ← (pyMax x 0.0) /! y; if pyEq k 0.0 then r k else s k) = s (x / y) := by
      rw [pyMax_real, zero_lit, max_eq_left hl.le, pyDiv_ok hy, ok_bind, if_neg (fun c => nz (pyEq_real.1 c))]
    rw [e]
    have ap := hu.div hb hy
    refine (h2 hl hy _ ap).congr ?_
    filter_upwards [hu.lt_iff Follows.zero hx, hb.pyEq_not Follows.zero hy, ap.pyEq_not Follows.zero nz] with i e1 e2 e3
    unfold pyMax pyDiv
    rw [if_neg (fun c => absurd (e1.1 c) (not_lt.2 hl.le)), if_neg e2, ok_bind, if_neg e3]

/-- Approximation of the line-of-sight coefficients. -/
structure LosApx (F : Refining l α ε) (K : ∀ i, LosC (α i)) (k : LosC ℝ) : Prop where
  ael : F.Approx (fun i => (K i).ael) k.ael
  ak1 : F.Approx (fun i => (K i).ak1) k.ak1
  ak2 : F.Approx (fun i => (K i).ak2) k.ak2

/-- Approximation of two numbers. -/
def PairApx (F : Refining l α ε) (b : ∀ i, α i × α i) (y : ℝ × ℝ) : Prop := F.Approx (fun i => (b i).1) y.1 ∧ F.Approx (fun i => (b i).2) y.2

theorem refine_plain {d1 d2 a1 a2 e : ∀ i, α i} {x1 x2 v1 v2 m : ℝ} (h1 : F.Approx d1 x1) (h2 : F.Approx d2 x2) (k1 : F.Approx a1 v1) (k2 : F.Approx a2 v2)
    (he : F.Approx e m) (hne : v2 ≠ v1) : Follows l (PairApx F) (fun i => losPlain (d1 i) (d2 i) (a1 i) (a2 i) (e i)) (losPlain x1 x2 v1 v2 m) := by
  unfold losPlain
  refine refine_repair (k2.sub k1) (h2.sub h1) (sub_ne_zero.2 hne) (fun _ _ v hv => ?_) (fun _ _ v hv => ?_)
  · exact Follows.pure ⟨he, Refining.Approx.lit _ _ _⟩
  · exact Follows.pure ⟨hv, Refining.Approx.lit _ _ _⟩

theorem refine_ak1 {d0 d2 a0 a2 q k e : ∀ i, α i} {x0 x2 v0 v2 w g m : ℝ} (h0 : F.Approx d0 x0) (h2 : F.Approx d2 x2) (k0 : F.Approx a0 v0) (k2 : F.Approx a2 v2)
    (hq : F.Approx q w) (hk : F.Approx k g) (he : F.Approx e m) (hne : v2 ≠ v0) (hk1 : (v2 - v0 - g * w) / (x2 - x0) ≠ 0) :
    Follows l (PairApx F) (fun i => losAk1 (d0 i) (d2 i) (a0 i) (a2 i) (q i) (k i) (e i)) (losAk1 x0 x2 v0 v2 w g m) := by
  unfold losAk1
  refine Follows.bind (Follows.div (F := F) (by appr) (h2.sub h0)) (fun b s hs hb => ?_)
  have es := (pyDiv_eq_ok.1 hs).2
  refine Follows.ite (hb.lt_iff (Refining.Approx.lit _ _ _) ?_) (fun _ => ?_) (fun _ => ?_)
  · rw [es]; intro e; apply hk1; rw [e]; norm_num
  · refine refine_repair (k2.sub k0) hq (sub_ne_zero.2 hne) (fun _ _ v hv => ?_) (fun _ _ v hv => ?_)
    · exact Follows.pure ⟨he, hv⟩
    · exact Follows.pure ⟨Refining.Approx.lit _ _ _, hv⟩
  · exact Follows.pure ⟨hb, hk⟩

theorem refine_dists {P : ∀ i, PropSt (α i)} {p : PropSt ℝ} (w : F.Approx (fun i => (P i).wn) p.wn) (e0 : F.Approx (fun i => (P i).he.x0) p.he.x0)
    (e1 : F.Approx (fun i => (P i).he.x1) p.he.x1) {H : ∀ i, Horizon (α i)} {h : Horizon ℝ} (hh : HorApx F H h) {L : ∀ i, DiffLine (α i)} {y : DiffLine ℝ}
    (hl : LinApx F L y) (hne : y.aed ≠ 0) : Follows l (PairApx F) (fun i => losDists (P i) (H i) (L i)) (losDists p h y) := by
  obtain ⟨s1, s2, s3⟩ := hh
  obtain ⟨l1, l2, l3, l4⟩ := hl
  unfold losDists
  have d0 : F.Approx (fun i => 1.908 * (P i).wn * (P i).he.x0 * (P i).he.x1) (1.908 * p.wn * p.he.x0 * p.he.x1) := by appr
  refine Follows.ite (Refining.Approx.le_iff (Refining.Approx.lit _ _ _) l3 ?_) (fun _ => ?_) (fun _ => ?_)
  · intro e; apply hne; rw [← e]; norm_num
  · refine Follows.pure ⟨?_, ?_⟩
    · dsimp only; appr
    · dsimp only; appr
  · refine Follows.bind (Follows.div (F := F) l3.neg l2) (fun b s hs hb => ?_)
    refine Follows.pure ⟨d0, ?_⟩
    dsimp only; appr

theorem refine_los {p : PropSt ℝ} {s : Setup ℝ} (hs : setupC p.mdp (inp p) = .ok s) {I : ∀ i, LrIn (α i)} (hi : InApx F I (inp p)) (a : Adm (inp p))
    (pdh : 0 < p.dh) {S : ∀ i, Setup (α i)} (hS : SetApx F S s) (c : (linkOf p).SightClear) :
    Follows l (LosApx F) (fun i => losC (I i) (S i).h (S i).l) (losC (inp p) s.h s.l) := by
  obtain ⟨_, ⟨e1, e2, _⟩, _, hemd, hwis, hline, hpos⟩ := Props.line_spec hs
  have haed : s.l.aed = (linkOf p).diffLine 0 := by rw [← hline]; ring
  have hmix : ∀ {d a : ℝ}, alos d { blank 0 (inp p) with line := some s.l } = .ok a → a = (linkOf p).twoRayMix d := by
    intro d a ha
    rw [Props.alos_value (p := { blank 0 (inp p) with line := some s.l }) rfl ha]
    unfold Link.twoRayMix
    rw [← hline, hwis]; rfl
  have hl := hS.l
  have hh := hS.h
  have q2 : F.Approx (fun i => (S i).l.aed + (S i).h.dlsa * (S i).l.emd) (s.l.aed + s.h.dlsa * s.l.emd) := hl.aed.add (hh.dlsa.mul hl.emd)
  have v2 : s.l.aed + s.h.dlsa * s.l.emd = (linkOf p).diffLine (linkOf p).dlsa := by rw [← hline, e1]; ring
  unfold losC losCoef
  dsimp only
  refine Follows.bind (refine_dists (P := fun i => { blank 0 (I i) with line := some (S i).l }) (p := { blank 0 (inp p) with line := some s.l })
    hi.wn hi.he0 hi.he1 hh hl (by rw [haed]; exact c.start)) (fun b dd hd hb => ?_)
  obtain ⟨d0, d1⟩ := dd
  obtain ⟨b0, b1⟩ := hb
  have hfd : (d0, d1) = ((linkOf p).fit0, (linkOf p).fit1) := by
    unfold Link.fit0 Link.fit1
    unfold losDists at hd
    unfold fitDistances
    simp only [zero_lit] at hd
    rw [← haed, ← hemd, ← e2]
    by_cases c : 0 ≤ s.l.aed
    · rw [if_pos c, pure_ok, ok_inj] at hd
      rw [if_pos c, ← hd]
      simp only [pyMin_real]
      refine Prod.ext ?_ ?_
      · show min (1.908 * p.wn * p.he.x0 * p.he.x1) _ = _
        rw [show (0.5 * s.h.dla : ℝ) = s.h.dla / 2 by norm_num; ring]
        rfl
      · show min (1.908 * p.wn * p.he.x0 * p.he.x1) _ + _ = _
        rw [show (0.5 * s.h.dla : ℝ) = s.h.dla / 2 by norm_num; ring]
        change _ + 0.25 * (_ - min (1.908 * p.wn * p.he.x0 * p.he.x1) _) = min (1.908 * p.wn * p.he.x0 * p.he.x1) _ + _
        rw [show (0.25 : ℝ) = 1 / 4 by norm_num]
        change _ = _ + (_ - min (1.908 * p.wn * p.he.x0 * p.he.x1) _) / 4
        ring
    · rw [if_neg c] at hd
      obtain ⟨q, hq, hd⟩ := bind_eq_ok.1 hd
      rw [pure_ok, ok_inj] at hd
      rw [if_neg c, ← hd, (pyDiv_eq_ok.1 hq).2, pyMax_real]
      rw [show (0.25 * s.h.dla : ℝ) = s.h.dla / 4 by norm_num; ring]
      rfl
  obtain ⟨rfl, rfl⟩ := Prod.mk.inj hfd
  -- the distances are positive
  have pla : 0 < (linkOf p).dla := add_pos a.dl0 a.dl1
  have pn : 0 < 1.908 * (linkOf p).wn * (linkOf p).he₀ * (linkOf p).he₁ := by
    have h1 : 0 < (linkOf p).wn := a.wn
    have h2 : 0 < (linkOf p).he₀ := a.he0
    have h3 : 0 < (linkOf p).he₁ := a.he1
    positivity
  have p0 : 0 < (linkOf p).fit0 := by
    unfold Link.fit0 fitDistances
    dsimp only
    split_ifs
    · exact lt_min pn (by positivity)
    · exact pn
  have p1 : 0 < (linkOf p).fit1 := by
    unfold Link.fit1 fitDistances
    dsimp only
    split_ifs
    · have h1 : 0 < min (1.908 * (linkOf p).wn * (linkOf p).he₀ * (linkOf p).he₁) ((linkOf p).dla / 2) := lt_min pn (by positivity)
      have h2 := min_le_right (1.908 * (linkOf p).wn * (linkOf p).he₀ * (linkOf p).he₁) ((linkOf p).dla / 2)
      generalize min (1.908 * (linkOf p).wn * (linkOf p).he₀ * (linkOf p).he₁) ((linkOf p).dla / 2) = m at h1 h2
      show 0 < m + ((linkOf p).dla - m) / 4
      linarith
    · exact lt_max_of_lt_right (by positivity)
  change F.Approx (fun i => (b i).1) (linkOf p).fit0 at b0
  change F.Approx (fun i => (b i).2) (linkOf p).fit1 at b1
  dsimp only
  refine Follows.bind (refine_alos (P := fun i => { blank 0 (I i) with line := some (S i).l }) (p := { blank 0 (inp p) with line := some s.l })
    hi a pdh b1 p1 (fun _ => rfl) rfl (fun _ => rfl) rfl hl ⟨c.ray1.quarter, c.ray1.grazing, c.ray1.phase⟩) (fun A1 a1 ha1 hA1 => ?_)
  have w1 := hmix ha1
  subst w1
  -- what follows the two coefficients
  have tail : ∀ {K : ∀ i, α i × α i} {k : ℝ × ℝ}, PairApx F K k → Follows l (LosApx F)
      (fun i => (do let lg ← npLog (S i).h.dlsa
                    pure { ael := (S i).l.aed + (S i).h.dlsa * (S i).l.emd - (K i).1 * (S i).h.dlsa - (K i).2 * lg, ak1 := (K i).1, ak2 := (K i).2 }
                      : Py (LosC (α i))))
      (do let lg ← npLog s.h.dlsa
          pure { ael := s.l.aed + s.h.dlsa * s.l.emd - k.1 * s.h.dlsa - k.2 * lg, ak1 := k.1, ak2 := k.2 }) := by
    intro K k hK
    obtain ⟨K1, K2⟩ := hK
    refine Follows.bind (Follows.log hh.dlsa) (fun lb lg hlg hlb => ?_)
    exact Follows.pure ⟨(q2.sub (K1.mul hh.dlsa)).sub (K2.mul hlb), K1, K2⟩
  have plain : ∀ {m : ∀ i, α i × α i → Py (LosC (α i))} {r : ℝ × ℝ → Py (LosC ℝ)}, (∀ {K : ∀ i, α i × α i} {k : ℝ × ℝ}, PairApx F K k →
      Follows l (LosApx F) (fun i => m i (K i)) (r k)) → Follows l (LosApx F)
      (fun i => losPlain (b i).2 (S i).h.dlsa (A1 i) ((S i).l.aed + (S i).h.dlsa * (S i).l.emd) (S i).l.emd >>= m i)
      (losPlain (linkOf p).fit1 s.h.dlsa ((linkOf p).twoRayMix (linkOf p).fit1) (s.l.aed + s.h.dlsa * s.l.emd) s.l.emd >>= r) := by
    intro m r hm
    refine Follows.bind (refine_plain b1 hh.dlsa hA1 q2 hl.emd ?_) (fun K k _ hK => hm hK)
    rw [v2]; exact c.rise
  refine Follows.ite (b0.lt_iff b1 c.order) (fun h01 => ?_) (fun _ => plain tail)
  obtain ⟨r0, k2, k1, rise0⟩ := c.fit h01
  refine Follows.bind (refine_alos (P := fun i => { blank 0 (I i) with line := some (S i).l }) (p := { blank 0 (inp p) with line := some s.l })
    hi a pdh b0 p0 (fun _ => rfl) rfl (fun _ => rfl) rfl hl ⟨r0.quarter, r0.grazing, r0.phase⟩) (fun A0 a0 ha0 hA0 => ?_)
  have w0 := hmix ha0
  subst w0
  refine Follows.bind (Follows.div hh.dlsa b0) (fun B2 x2 hx2 hB2 => ?_)
  obtain ⟨-, rfl⟩ := pyDiv_eq_ok.1 hx2
  refine Follows.bind (Follows.log hB2) (fun Q q hq hQ => ?_)
  obtain ⟨-, rfl⟩ := npLog_eq_ok.1 hq
  unfold losAk2
  simp only [bind_assoc]
  refine Follows.bind (Follows.div b1 b0) (fun B3 x3 hx3 hB3 => ?_)
  obtain ⟨-, rfl⟩ := pyDiv_eq_ok.1 hx3
  refine Follows.bind (Follows.log hB3) (fun Q1 q1 hq1 hQ1 => ?_)
  obtain ⟨-, rfl⟩ := npLog_eq_ok.1 hq1
  refine Follows.bind (Follows.div (F := F) (((hh.dlsa.sub b0).mul (hA1.sub hA0)).sub ((b1.sub b0).mul (q2.sub hA0)))
    (((hh.dlsa.sub b0).mul hQ1).sub ((b1.sub b0).mul hQ))) (fun B4 x4 hx4 hB4 => ?_)
  obtain ⟨-, rfl⟩ := pyDiv_eq_ok.1 hx4
  have ek2 : ((s.h.dlsa - (linkOf p).fit0) * ((linkOf p).twoRayMix (linkOf p).fit1 - (linkOf p).twoRayMix (linkOf p).fit0) -
      ((linkOf p).fit1 - (linkOf p).fit0) * (s.l.aed + s.h.dlsa * s.l.emd - (linkOf p).twoRayMix (linkOf p).fit0)) /
      ((s.h.dlsa - (linkOf p).fit0) * Real.log ((linkOf p).fit1 / (linkOf p).fit0) -
        ((linkOf p).fit1 - (linkOf p).fit0) * Real.log (s.h.dlsa / (linkOf p).fit0)) = (linkOf p).fitK2 := by
    rw [v2, e1]; rfl
  rw [ek2] at hB4 ⊢
  simp only [pure_ok, ok_bind]
  refine Follows.ite (ev_or (Refining.Approx.le_iff (Refining.Approx.lit _ _ _) hl.aed ?_) (lt_max_iff hB4 k2)) (fun _ => ?_) (fun _ => plain tail)
  · rw [haed]; intro e; apply c.start; rw [← e]; norm_num
  refine Follows.bind (refine_ak1 b0 hh.dlsa hA0 q2 hQ ((Refining.Approx.lit 0 true 1).pyMax hB4) hl.emd ?_ ?_) (fun K k _ hK => tail hK)
  · rw [v2]; exact rise0
  · rw [v2, e1]
    intro e
    apply k1
    rw [pyMax_real, zero_lit] at e
    exact e

end Itm
