import Verif.Model.Runners
import Verif.Lemmas.RefineSweep
import Verif.Lemmas.RefineQerfi
import Verif.Lemmas.RefineLos
import Verif.Lemmas.Area
import Verif.Props.C59
import Verif.Spec.AreaClear

/-! `itmlogic_area` in arithmetics of growing precision. -/

namespace Itm
open Itm.Spec Filter Asymptotics Topology

variable {ι : Type} {l : Filter ι} {α : ι → Type} [∀ i, PyNum (α i)] {ε : ι → ℝ} {F : Refining l α ε}

/-! ### Lists -/

/-- Lists of finally the same length with related elements. -/
def ListApx (l : Filter ι) {β : ι → Type} {γ : Type} (Q : (∀ i, β i) → γ → Prop) : (∀ i, List (β i)) → List γ → Prop
  | A, [] => ∀ᶠ i in l, A i = []
  | A, x :: xs => ∃ b B, (∀ᶠ i in l, A i = b i :: B i) ∧ Q b x ∧ ListApx l Q B xs

section
variable {β : ι → Type} {γ : Type} {Q : (∀ i, β i) → γ → Prop}

theorem ListApx.nil : ListApx l Q (fun _ => []) [] := Eventually.of_forall fun _ => rfl

theorem ListApx.cons {b : ∀ i, β i} {x : γ} {B : ∀ i, List (β i)} {xs : List γ} (h : Q b x) (k : ListApx l Q B xs) :
    ListApx l Q (fun i => b i :: B i) (x :: xs) := ⟨b, B, Eventually.of_forall fun _ => rfl, h, k⟩

theorem ListApx.congr {A B : ∀ i, List (β i)} {xs : List γ} (h : ListApx l Q A xs) (e : ∀ᶠ i in l, A i = B i) : ListApx l Q B xs := by
  cases xs with
  | nil => unfold ListApx at *; filter_upwards [h, e] with i h1 h2; rw [← h2, h1]
  | cons x xs =>
    obtain ⟨b, C, h1, h2, h3⟩ := h
    exact ⟨b, C, by filter_upwards [h1, e] with i k1 k2; rw [← k2, k1], h2, h3⟩

theorem ListApx.append {A B : ∀ i, List (β i)} {xs ys : List γ} (h : ListApx l Q A xs) (k : ListApx l Q B ys) :
    ListApx l Q (fun i => A i ++ B i) (xs ++ ys) := by
  induction xs generalizing A with
  | nil => exact k.congr (by unfold ListApx at h; filter_upwards [h] with i hi; rw [hi]; rfl)
  | cons x xs ih =>
    obtain ⟨b, C, h1, h2, h3⟩ := h
    exact ⟨b, _, by filter_upwards [h1] with i hi; rw [hi]; rfl, h2, ih h3⟩

theorem ListApx.length {A : ∀ i, List (β i)} {xs : List γ} (h : ListApx l Q A xs) : ∀ᶠ i in l, (A i).length = xs.length := by
  induction xs generalizing A with
  | nil => unfold ListApx at h; filter_upwards [h] with i hi; rw [hi]; rfl
  | cons x xs ih =>
    obtain ⟨b, C, h1, -, h3⟩ := h
    filter_upwards [h1, ih h3] with i k1 k2
    rw [k1, List.length_cons, List.length_cons, k2]

theorem ListApx.get {A : ∀ i, List (β i)} {xs : List γ} (h : ListApx l Q A xs) {j : ℕ} {x : γ} (hx : xs[j]? = some x) :
    ∃ b, (∀ᶠ i in l, (A i)[j]? = some (b i)) ∧ Q b x := by
  induction xs generalizing A j with
  | nil => simp at hx
  | cons y ys ih =>
    obtain ⟨b, C, h1, h2, h3⟩ := h
    cases j with
    | zero =>
      rw [List.getElem?_cons_zero] at hx
      obtain rfl := Option.some.inj hx
      exact ⟨b, by filter_upwards [h1] with i k; rw [k]; rfl, h2⟩
    | succ j =>
      rw [List.getElem?_cons_succ] at hx
      obtain ⟨c, k1, k2⟩ := ih h3 hx
      exact ⟨c, by filter_upwards [h1, k1] with i e1 e2; rw [e1, List.getElem?_cons_succ, e2], k2⟩

end

/-- Rows: equal confidence, approximate distance and loss. -/
def RowApx (F : Refining l α ε) (R : ∀ i, AreaRow (α i)) (r : AreaRow ℝ) : Prop :=
  (∀ᶠ i in l, (R i).confidence = r.confidence) ∧ F.Approx (fun i => (R i).distance_km) r.distance_km ∧ F.Approx (fun i => (R i).loss) r.loss

/-- Levels: equal percentages, approximate deviates. -/
def LevApx (F : Refining l α ε) (R : ∀ i, Int × α i) (r : Int × ℝ) : Prop := (∀ᶠ i in l, (R i).1 = r.1) ∧ F.Approx (fun i => (R i).2) r.2

/-! ### The loops -/

theorem refine_freeSpace {W D : ∀ i, α i} {w d : ℝ} (hw : F.Approx W w) (hd : F.Approx D d) : Follows l F.Approx (fun i => freeSpace (W i) (D i)) (freeSpace w d) := by
  unfold freeSpace
  refine Follows.bind (Follows.log (((Refining.Approx.lit _ _ _).mul hw).mul hd)) (fun U u _ hu => ?_)
  exact Follows.pure ((Refining.Approx.lit _ _ _).mul hu)

theorem refine_inner {m : Int} {j : LrIn ℝ} {D S X Y : ∀ i, α i} {d s x y : ℝ} (hd : F.Approx D d) (hs : F.Approx S s) (hx : F.Approx X x) (hy : F.Approx Y y)
    {Z : ∀ i, List (Int × α i)} {z : List (Int × ℝ)} (hz : ListApx l (LevApx F) Z z) {Q : ∀ i, PropSt (α i)} {q : PropSt ℝ} (h : SweepApx F m j Q q) :
    Follows l (fun b r => ListApx l (RowApx F) (fun i => (b i).1) r.1 ∧ SweepApx F m j (fun i => (b i).2) r.2)
      (fun i => areaInner (D i) (S i) (X i) (Y i) (Z i) (Q i)) (areaInner d s x y z q) := by
  induction z generalizing Z Q q with
  | nil =>
    refine Follows.congr (m := fun i => areaInner (D i) (S i) (X i) (Y i) [] (Q i)) ?_ (by unfold ListApx at hz; filter_upwards [hz] with i hi; rw [hi])
    unfold areaInner
    exact Follows.pure ⟨ListApx.nil, h⟩
  | cons c cs ih =>
    obtain ⟨b, B, h1, h2, h3⟩ := hz
    obtain ⟨n, z⟩ := c
    refine Follows.congr (m := fun i => areaInner (D i) (S i) (X i) (Y i) ((n, (b i).2) :: B i) (Q i)) ?_
      (by filter_upwards [h1, h2.1] with i hi hn; rw [hi]; congr 2; exact Prod.ext hn.symm rfl)
    unfold areaInner
    refine Follows.bind (refine_sweep_avar h hx hy h2.2) (fun A a _ hA => ?_)
    obtain ⟨a1, a2, -⟩ := hA
    refine Follows.bind (ih h3 a2) (fun R r _ hR => ?_)
    exact Follows.pure ⟨ListApx.cons ⟨Eventually.of_forall fun _ => rfl, hd, hs.add a1⟩ hR.1, hR.2⟩

/-- The distances of the remaining turns (in km) are fine. -/
def TurnsClear (L : Link) (ndc : Int) (ds2 : ℝ) : Nat → Int → ℝ → ℝ → Prop
  | 0, _, _, _ => True
  | k + 1, jd, d, dt => 0 < d ∧ L.Clear (d * 1000.0) ∧
    TurnsClear L ndc ds2 k (jd + 1) (d + if jd + 1 = ndc then ds2 else dt) (if jd + 1 = ndc then ds2 else dt)

theorem refine_loop {p : PropSt ℝ} (a : Adm (inp p)) (pdh : 0 < p.dh) {X Y : ∀ i, α i} {x y : ℝ} (hx : F.Approx X x) (hy : F.Approx Y y)
    {Z : ∀ i, List (Int × α i)} {z : List (Int × ℝ)} (hz : ListApx l (LevApx F) Z z) (ndc : Int) {E : ∀ i, α i} {e : ℝ} (he : F.Approx E e)
    (k : Nat) {jd : Int} {D T : ∀ i, α i} {d t : ℝ} (hd : F.Approx D d) (ht : F.Approx T t) (c : TurnsClear (linkOf p) ndc e k jd d t)
    {Q : ∀ i, PropSt (α i)} {q : PropSt ℝ} (h : SweepApx F p.mdp (inp p) Q q) :
    Follows l (fun b r => ListApx l (RowApx F) (fun i => (b i).1) r.1)
      (fun i => areaLoop (X i) (Y i) (Z i) ndc (E i) k jd (D i) (T i) (Q i)) (areaLoop x y z ndc e k jd d t q) := by
  induction k generalizing jd D T d t Q q with
  | zero =>
    unfold areaLoop
    exact Follows.pure ListApx.nil
  | succ k ih =>
    obtain ⟨c1, c2, c3⟩ := c
    unfold areaLoop
    refine Follows.bind (refine_next h.raise a pdh (hd.mul (Refining.Approx.lit _ _ _)) (by norm_num; exact c1) c2) (fun Q q _ hq => ?_)
    refine Follows.bind (refine_freeSpace hq.1.stat.wn hq.1.stat.dist) (fun S s _ hs => ?_)
    refine Follows.bind (refine_inner hd hs hx hy hz hq.1) (fun R r _ hR => ?_)
    have ht' : F.Approx (fun i => if jd + 1 = ndc then E i else T i) (if jd + 1 = ndc then e else t) := by
      split_ifs
      · exact he
      · exact ht
    refine Follows.bind (ih (hd.add ht') ht' c3 hR.2) (fun R' r' _ hR' => ?_)
    exact Follows.pure (hR.1.append hR')

theorem refine_loop_first {P : ∀ i, PropSt (α i)} {p : PropSt ℝ} (h : StartApx F P p) (a : Adm (inp p)) (pdh : 0 < p.dh) {X Y : ∀ i, α i} {x y : ℝ} (hx : F.Approx X x) (hy : F.Approx Y y)
    {Z : ∀ i, List (Int × α i)} {z : List (Int × ℝ)} (hz : ListApx l (LevApx F) Z z) (ndc : Int) {E : ∀ i, α i} {e : ℝ} (he : F.Approx E e)
    (k : Nat) {jd : Int} {D T : ∀ i, α i} {d t : ℝ} (hd : F.Approx D d) (ht : F.Approx T t) (c : TurnsClear (linkOf p) ndc e k jd d t) :
    Follows l (fun b r => ListApx l (RowApx F) (fun i => (b i).1) r.1)
      (fun i => areaLoop (X i) (Y i) (Z i) ndc (E i) k jd (D i) (T i) (P i)) (areaLoop x y z ndc e k jd d t p) := by
  cases k with
  | zero =>
    unfold areaLoop
    exact Follows.pure ListApx.nil
  | succ k =>
    obtain ⟨c1, c2, c3⟩ := c
    have h' : StartApx F (fun i => { P i with lvar := max 1 (P i).lvar }) { p with lvar := max 1 p.lvar } := by
      refine ⟨h.mdp, h.inp, h.fresh, fun D d hD pd => ?_, fun c => absurd c (by simp only; omega)⟩
      have st := h.stat D d hD pd
      refine ⟨?_, st.klim, st.mdvar, st.clim, st.vmode, st.fgain, st.dexa, st.varc, st.aref, st.dist, st.dh, st.wn, st.he0, st.he1, st.pos⟩
      filter_upwards [st.lvar] with i hi
      simp only at hi
      simp only [hi]
    unfold areaLoop
    refine Follows.bind (refine_first h' a pdh (hd.mul (Refining.Approx.lit _ _ _)) (by norm_num; exact c1) c2) (fun Q q _ hq => ?_)
    refine Follows.bind (refine_freeSpace hq.1.stat.wn hq.1.stat.dist) (fun S s _ hs => ?_)
    refine Follows.bind (refine_inner hd hs hx hy hz hq.1) (fun R r _ hR => ?_)
    have ht' : F.Approx (fun i => if jd + 1 = ndc then E i else T i) (if jd + 1 = ndc then e else t) := by
      split_ifs
      · exact he
      · exact ht
    refine Follows.bind (refine_loop (p := p) a pdh hx hy hz ndc he k (hd.add ht') ht' c3 hR.2) (fun R' r' _ hR' => ?_)
    exact Follows.pure (hR.1.append hR')

/-! ### Preparation -/

theorem Spec.Refining.Approx.whole (F : Refining l α ε) (x : ℤ) : F.Approx (fun i => (PyNum.ofInt x : α i)) (x : ℝ) := by
  have hb : ∀ᶠ i in l, |(x : ℝ)| ≤ 1 / ε i := by
    have h0 : (0 : ℝ) < 1 / (|(x : ℝ)| + 1) := by positivity
    filter_upwards [F.tends.eventually (gt_mem_nhds h0)] with i hi
    have := F.pos i
    rw [le_div_iff₀ this]
    rw [lt_div_iff₀ (by positivity)] at hi
    nlinarith [abs_nonneg (x : ℝ)]
  refine ⟨hb.mono fun i hi => ((F.arith i).ofInt x hi).1, ?_⟩
  refine IsBigO.of_bound 1 ?_
  filter_upwards [hb] with i hi
  rw [((F.arith i).ofInt x hi).2, sub_self, norm_zero]
  positivity

theorem Spec.Refining.Approx.floor {A : ∀ i, α i} {x : ℝ} (h : F.Approx A x) (hx : ∀ n : ℤ, x ≠ n) : ∀ᶠ i in l, PyNum.floor (A i) = ⌊x⌋ := by
  have h1 : (⌊x⌋ : ℝ) < x := lt_of_le_of_ne (Int.floor_le x) (hx _).symm
  have h2 : x < (⌊x⌋ : ℝ) + 1 := Int.lt_floor_add_one x
  filter_upwards [h.fin, h.tendsto.eventually (lt_mem_nhds h1), h.tendsto.eventually (gt_mem_nhds h2)] with i k1 k2 k3
  rw [(F.arith i).floor _ k1, Int.floor_eq_iff]
  exact ⟨k2.le, k3⟩

theorem Follows.npSqrt {A : ∀ i, α i} {x : ℝ} (h : F.Approx A x) (hx : x ≠ 0) : Follows l F.Approx (fun i => npSqrt (A i)) (npSqrt x) := by
  unfold Itm.npSqrt
  refine Follows.ite (by rw [zero_lit]; exact h.lt_iff Follows.zero hx) (fun _ => fun y hy => absurd hy (by simp)) (fun c => ?_)
  rw [zero_lit] at c
  exact Follows.ok (h.sqrt (lt_of_le_of_ne (not_lt.1 c) hx.symm))

theorem refine_sited {k : ℤ} {G H : ∀ i, α i} {hg dh : ℝ} (h0 : F.Approx G hg) (h1 : F.Approx H dh) (c : SiteClear k hg) :
    F.Approx (fun i => qlraHe k (G i) (H i)) (qlraHe k hg dh) := by
  unfold qlraHe
  by_cases hk : k ≤ 0
  · simp only [if_pos hk]; exact h0
  simp only [if_neg hk]
  have h5 : hg ≠ 5.0 := by rw [show (5.0 : ℝ) = 5 by norm_num]; exact c (by omega)
  have hb : F.Approx (fun i => (if k ≠ 1 then (9.0 : α i) else 4.0)) (if k ≠ 1 then (9.0 : ℝ) else 4.0) := by
    split_ifs <;> exact Refining.Approx.lit _ _ _
  have hq : F.Approx (fun i => if G i < 5.0 then (if k ≠ 1 then (9.0 : α i) else 4.0) * PyNum.sin (0.3141593 * G i) else (if k ≠ 1 then (9.0 : α i) else 4.0))
      (if hg < 5.0 then (if k ≠ 1 then (9.0 : ℝ) else 4.0) * PyNum.sin (0.3141593 * hg) else (if k ≠ 1 then (9.0 : ℝ) else 4.0)) := by
    have dec := h0.lt_iff (Refining.Approx.lit (F := F) 50 true 1) h5
    by_cases q : hg < 5.0
    · rw [if_pos q]
      refine (hb.mul ((Refining.Approx.lit _ _ _).mul h0).sin).congr ?_
      filter_upwards [dec] with i hi
      rw [if_pos (hi.2 q)]
    · rw [if_neg q]
      refine hb.congr ?_
      filter_upwards [dec] with i hi
      rw [if_neg (fun w => q (hi.1 w))]
  refine h0.add (((Refining.Approx.lit _ _ _).add hq).mul ?_)
  refine Refining.Approx.exp (Refining.Approx.neg ((Refining.Approx.lit _ _ _).pyMin (((Refining.Approx.lit _ _ _).mul h0).div
    ((Refining.Approx.lit _ _ _).pyMax h1) ?_)))
  rw [pyMax_real]
  have : (0 : ℝ) < max 1e-3 dh := lt_of_lt_of_le (by norm_num) (le_max_left _ _)
  exact this.ne'

theorem refine_roughHorizon {E G H : ∀ i, α i} {he gme dh : ℝ} (h0 : F.Approx E he) (h1 : F.Approx G gme) (h2 : F.Approx H dh) (pe : he ≠ 0) (pd : dh ≠ 0) :
    Follows l (fun b y => F.Approx (fun i => (b i).1) y.1 ∧ F.Approx (fun i => (b i).2) y.2) (fun i => qlraHorizon (E i) (G i) (H i)) (qlraHorizon he gme dh) := by
  unfold qlraHorizon
  refine Follows.bind (Follows.div ((Refining.Approx.lit _ _ _).mul h0) h1) (fun A a ha hA => ?_)
  obtain ⟨hg, ea⟩ := pyDiv_eq_ok.1 ha
  have na : a ≠ 0 := by rw [ea]; exact div_ne_zero (mul_ne_zero (by norm_num) pe) hg
  refine Follows.bind (Follows.npSqrt hA na) (fun Q q _ hQ => ?_)
  have pm : (0 : ℝ) < pyMax he 5.0 := by rw [pyMax_real]; exact lt_of_lt_of_le (by norm_num) (le_max_right _ _)
  refine Follows.bind (Follows.npSqrt (h2.div (h0.pyMax (Refining.Approx.lit _ _ _)) pm.ne') (div_ne_zero pd pm.ne')) (fun S s _ hS => ?_)
  have hdl := hQ.mul (((Refining.Approx.lit (F := F) 7 true 2).neg.mul hS).exp)
  refine Follows.bind (Follows.div hQ hdl) (fun R r _ hR => ?_)
  refine Follows.bind (Follows.div (((((Refining.Approx.lit _ _ _).mul h2)).mul (hR.sub (Refining.Approx.lit _ _ _))).sub ((Refining.Approx.lit _ _ _).mul h0)) hQ)
    (fun T t _ hT => ?_)
  exact Follows.pure ⟨hdl, hT⟩

theorem refine_areaSys {A : ∀ i, α i} {f : ℝ} (h : F.Approx A f) (ipol : Int) : Follows l (CxApx F) (fun i => areaSys (A i) ipol) (areaSys f ipol) := by
  unfold areaSys groundZq
  simp only [bind_assoc, pure_ok, ok_bind]
  refine Follows.bind (Follows.div ((Refining.Approx.lit _ _ _).mul (Refining.Approx.lit _ _ _)) (h.div (Refining.Approx.lit _ _ _) (by norm_num))) (fun X x _ hX => ?_)
  have hr : Follows l F.Approx (fun i => mathSqrt ((15.0 : α i) - 1.0)) (mathSqrt ((15.0 : ℝ) - 1.0)) :=
    Follows.sqrt ((Refining.Approx.lit _ _ _).sub (Refining.Approx.lit _ _ _)) (show (15.0 : ℝ) - 1.0 ≠ 0 by norm_num)
  refine Follows.bind hr (fun Y y _ hY => ?_)
  refine Follows.ite (Eventually.of_forall fun _ => Iff.rfl) (fun _ => ?_) (fun _ => Follows.pure ⟨hY, Refining.Approx.lit _ _ _⟩)
  exact CxApx.div ⟨hY, Refining.Approx.lit _ _ _⟩ ⟨Refining.Approx.lit _ _ _, hX⟩

/-- After the system parameters are set. -/
structure SysApx (F : Refining l α ε) (S : ∀ i, PropSt (α i)) (s : PropSt ℝ) : Prop where
  hg0 : F.Approx (fun i => (S i).hg.x0) s.hg.x0
  hg1 : F.Approx (fun i => (S i).hg.x1) s.hg.x1
  dh : F.Approx (fun i => (S i).dh) s.dh
  wn : F.Approx (fun i => (S i).wn) s.wn
  ens : F.Approx (fun i => (S i).ens) s.ens
  gme : F.Approx (fun i => (S i).gme) s.gme
  z : CxApx F (fun i => (S i).zgnd) s.zgnd
  marks : s.klimx = 5 ∧ s.mdvarx = 3 ∧ s.lvar = 0 ∧ ∀ i, (S i).klimx = 5 ∧ (S i).mdvarx = 3 ∧ (S i).lvar = 0

theorem refine_areaSetup {P : ∀ i, PropSt (α i)} {p : PropSt ℝ} (h : UserApx F P p) (u : Untouched p) :
    Follows l (fun S s => SysApx F S s ∧ Untouched s) (fun i => areaSetup (P i)) (areaSetup p) := by
  simp only [areaSetup_eq, h.ipol]
  refine Follows.bind (refine_areaSys h.fmhz p.ipol) (fun Z z _ hZ => Follows.pure ?_)
  refine ⟨⟨h.hg0, h.hg1, h.dh, h.fmhz.div (Refining.Approx.lit _ _ _) (by norm_num), Refining.Approx.lit _ _ _, ?_, hZ, rfl, rfl, rfl, fun _ => ⟨rfl, rfl, rfl⟩⟩, u⟩
  unfold effCurvature
  exact (Refining.Approx.lit _ _ _).mul ((Refining.Approx.lit _ _ _).sub ((Refining.Approx.lit _ _ _).mul
    (Refining.Approx.exp ((Refining.Approx.lit _ _ _).div (Refining.Approx.lit _ _ _) (by norm_num)))))

theorem refine_qlra {S : ∀ i, PropSt (α i)} {s : PropSt ℝ} (h : SysApx F S s) (u : Untouched s) (kst : Pair Int) (pw : 0 < s.wn)
    (p0 : 0 < s.hg.x0) (p1 : 0 < s.hg.x1) (pg : 0 < s.gme) (pd : 0 < s.dh) (c0 : SiteClear kst.x0 s.hg.x0) (c1 : SiteClear kst.x1 s.hg.x1) :
    Follows l (StartApx F) (fun i => qlra kst (S i)) (qlra kst s) := by
  obtain ⟨he0, he1, q, hq, eq, -⟩ := Props.C38_total (kst := kst) p0 p1 pg pd.le
  have use := Props.C38_only_usable hq
  have e0 := Props.C38_heights hq
  rw [← Props.qlraHe_real, ← Props.qlraHe_real] at e0
  have q0 : 0 < qlraHe kst.x0 s.hg.x0 s.dh := by
    rw [← e0.1]; exact (div_pos_iff_of_pos_right pg).1 use.2.1
  have q1 : 0 < qlraHe kst.x1 s.hg.x1 s.dh := by
    rw [← e0.2]; exact (div_pos_iff_of_pos_right pg).1 use.2.2
  have a0 := refine_sited (k := kst.x0) h.hg0 h.dh c0
  have a1 := refine_sited (k := kst.x1) h.hg1 h.dh c1
  unfold qlra
  refine Follows.bind (refine_roughHorizon a0 h.gme h.dh q0.ne' pd.ne') (fun A a _ hA => ?_)
  refine Follows.bind (refine_roughHorizon a1 h.gme h.dh q1.ne' pd.ne') (fun B b _ hB => ?_)
  obtain ⟨m1, m2, m3, m4⟩ := h.marks
  have pm : ∀ {β : Type} [PyNum β] (r : PropSt β), r.klimx = 5 → r.mdvarx = 3 → r.lvar = 0 → prepMarks r = { r with lvar := 5, mdvar := some 3, klim := some 5 } := by
    intro β _ r r1 r2 r3
    obtain ⟨⟩ := r
    simp only at r1 r2 r3
    subst r1 r2 r3
    rfl
  dsimp only
  rw [pm { s with he := ⟨qlraHe kst.x0 s.hg.x0 s.dh, qlraHe kst.x1 s.hg.x1 s.dh⟩, dl := ⟨a.1, b.1⟩, the := ⟨a.2, b.2⟩, mdp := 1 } m1 m2 m3]
  refine Follows.congr (m := fun i => Pure.pure { S i with he := ⟨qlraHe kst.x0 (S i).hg.x0 (S i).dh, qlraHe kst.x1 (S i).hg.x1 (S i).dh⟩, dl := ⟨(A i).1, (B i).1⟩, the := ⟨(A i).2, (B i).2⟩, mdp := 1, lvar := 5, mdvar := some 3, klim := some 5 }) ?_ (Eventually.of_forall fun i => by
    rw [pm { S i with he := ⟨qlraHe kst.x0 (S i).hg.x0 (S i).dh, qlraHe kst.x1 (S i).hg.x1 (S i).dh⟩, dl := ⟨(A i).1, (B i).1⟩, the := ⟨(A i).2, (B i).2⟩, mdp := 1 } (m4 i).1 (m4 i).2.1 (m4 i).2.2])
  refine Follows.pure ?_
  obtain ⟨u1, u2, u3, u4, u5, u6, u7⟩ := u
  refine ⟨⟨Int.one_pos, Eventually.of_forall fun _ => rfl⟩, ⟨h.hg0, h.hg1, a0, a1, hA.1, hB.1, hA.2, hB.2, h.wn, h.dh, h.ens, h.gme, h.z.re, h.z.im⟩, ⟨u1, u2⟩, fun D d hD d0 => ?_,
    fun c => absurd c (by simp only; omega)⟩
  have no : ∀ {β : ι → Type} {γ : Type} {Q : (∀ i, β i) → γ → Prop} {A : ∀ i, Option (β i)} {a : Option γ}, a = none → OptApx l Q A a := by
    intro β γ Q A a e; rw [e]; exact OptApx.none
  exact ⟨Eventually.of_forall fun _ => rfl, OptApx.some (Eventually.of_forall fun _ => rfl), OptApx.some ⟨Eventually.of_forall fun _ => rfl, by norm_num⟩, no u3, no u4,
    no u5, no u6, no u7, no u2, hD, h.dh, h.wn, a0, a1, d0, pw, q0, q1⟩

/-! ### Levels -/

theorem refine_qerfi (F : Refining l α ε) (q : List Int) (c : ∀ x ∈ q, Untied ((x : ℝ) / 100)) :
    Follows l (ListApx l F.Approx) (fun i => qerfi (q.map (percent : Int → α i))) (qerfi (q.map (percent : Int → ℝ))) := by
  unfold qerfi
  induction q with
  | nil => exact Follows.pure ListApx.nil
  | cons x xs ih =>
    simp only [List.map_cons, List.mapM_cons]
    refine Follows.bind (refine_level F x (c x (by simp))) (fun A a _ hA => ?_)
    refine Follows.bind (ih (fun y hy => c y (by simp [hy]))) (fun B b _ hB => ?_)
    exact Follows.pure (ListApx.cons hA hB)

theorem refine_get {A : ∀ i, List (α i)} {a : List ℝ} (h : ListApx l F.Approx A a) : Follows l F.Approx (fun i => pyGet (A i) 0) (pyGet a 0) := by
  cases a with
  | nil => intro x hx; exact absurd hx (by simp [pyGet])
  | cons y ys =>
    obtain ⟨b, B, h1, h2, -⟩ := h
    refine Follows.congr (Follows.ok h2) ?_
    filter_upwards [h1] with i hi
    rw [hi]; rfl

theorem refine_zip (q : List Int) {A : ∀ i, List (α i)} {a : List ℝ} (h : ListApx l F.Approx A a) : ListApx l (LevApx F) (fun i => q.zip (A i)) (q.zip a) := by
  induction q generalizing A a with
  | nil => exact ListApx.nil
  | cons x xs ih =>
    cases a with
    | nil =>
      unfold ListApx at h
      refine ListApx.congr (A := fun i => []) ListApx.nil ?_
      filter_upwards [h] with i hi; rw [hi]; rfl
    | cons y ys =>
      obtain ⟨b, B, h1, h2, h3⟩ := h
      refine ListApx.congr (ListApx.cons (b := fun i => (x, b i)) (x := (x, y)) ⟨Eventually.of_forall fun _ => rfl, h2⟩ (ih h3)) ?_
      filter_upwards [h1] with i hi
      rw [hi]; rfl

/-! ### The grid -/

/-- Approximation of plans. -/
structure PlanApx (F : Refining l α ε) (N : ∀ i, Plan (α i)) (n : Plan ℝ) : Prop where
  d0 : F.Approx (fun i => (N i).d0) n.d0
  ds2 : F.Approx (fun i => (N i).ds2) n.ds2
  nd : ∀ᶠ i in l, (N i).nd = n.nd
  ndc : ∀ᶠ i in l, (N i).ndc = n.ndc
  ds : OptApx l F.Approx (fun i => (N i).ds) n.ds

theorem plan_eq {β : Type} [PyNum β] {g : Grid β} (h1 : ¬ (if g.d0 ≤ 0.0 then g.ds1 else g.d0) ≤ 0.0)
    (h2 : ¬ (g.d1 ≤ (if g.d0 ≤ 0.0 then g.ds1 else g.d0) ∨ g.ds1 ≤ 0.0)) :
    areaPlan g = if g.d2 ≤ (if g.d0 ≤ 0.0 then g.ds1 else g.d0) + PyNum.ofInt (PyNum.floor ((g.d1 - (if g.d0 ≤ 0.0 then g.ds1 else g.d0)) / g.ds1 + 1.75) - 1) * g.ds1 ∨ g.ds2 ≤ 0.0
      then ⟨if g.d0 ≤ 0.0 then g.ds1 else g.d0, PyNum.floor ((g.d1 - (if g.d0 ≤ 0.0 then g.ds1 else g.d0)) / g.ds1 + 1.75), 0, some g.ds1, g.ds2⟩
      else ⟨if g.d0 ≤ 0.0 then g.ds1 else g.d0, PyNum.floor ((g.d1 - (if g.d0 ≤ 0.0 then g.ds1 else g.d0)) / g.ds1 + 1.75) +
        PyNum.floor ((g.d2 - ((if g.d0 ≤ 0.0 then g.ds1 else g.d0) + PyNum.ofInt (PyNum.floor ((g.d1 - (if g.d0 ≤ 0.0 then g.ds1 else g.d0)) / g.ds1 + 1.75) - 1) * g.ds1)) / g.ds2 + 0.75),
        PyNum.floor ((g.d1 - (if g.d0 ≤ 0.0 then g.ds1 else g.d0)) / g.ds1 + 1.75), some g.ds1, g.ds2⟩ := by
  unfold areaPlan
  generalize (if g.d0 ≤ 0.0 then g.ds1 else g.d0) = s at *
  dsimp only
  rw [if_neg h1, if_neg h2]

theorem plan_step {g : Grid ℝ} {t : ℝ} (ht : (areaPlan g).ds = some t) : 0 < g.ds1 ∧ 0 < gridStart g ∧ gridStart g < g.d1 ∧ t = g.ds1 := by
  have e : ∀ s : ℝ, (if s ≤ 0.0 then (2.0 : ℝ) else s) = if s ≤ 0 then 2 else s := fun s => by norm_num
  unfold areaPlan at ht
  dsimp only at ht
  rw [e] at ht
  rw [zero_lit] at ht
  change _ at ht
  have es : (if g.d0 ≤ 0 then g.ds1 else g.d0) = gridStart g := rfl
  rw [es] at ht
  have hn : ¬ (g.d1 ≤ (if gridStart g ≤ 0 then 2 else gridStart g) ∨ g.ds1 ≤ 0) := by
    intro c
    rw [if_pos c] at ht
    split_ifs at ht <;> simp at ht
  rw [if_neg hn] at ht
  push Not at hn
  obtain ⟨n1, n2⟩ := hn
  have sp : 0 < gridStart g := by
    unfold gridStart
    split_ifs with c
    · exact n2
    · exact not_le.1 c
  rw [if_neg (not_le.2 sp)] at n1
  refine ⟨n2, sp, n1, ?_⟩
  split_ifs at ht <;> simp at ht <;> exact ht.symm

theorem refine_plan {G : ∀ i, Grid (α i)} {g : Grid ℝ} (h : GridApx F G g) (c : GridClear g) {t : ℝ} (ht : (areaPlan g).ds = some t) :
    PlanApx F (fun i => areaPlan (G i)) (areaPlan g) := by
  obtain ⟨p1, p2, p3, -⟩ := plan_step ht
  have z := Follows.zero (F := F)
  have dec0 := h.d0.le_iff z c.start
  have hS : F.Approx (fun i => if (G i).d0 ≤ 0.0 then (G i).ds1 else (G i).d0) (gridStart g) := by
    unfold gridStart
    by_cases q : g.d0 ≤ 0
    · rw [if_pos q]
      refine h.ds1.congr ?_
      filter_upwards [dec0] with i hi
      rw [if_pos (hi.2 q)]
    · rw [if_neg q]
      refine h.d0.congr ?_
      filter_upwards [dec0] with i hi
      rw [if_neg (fun w => q (hi.1 w))]
  have es : (if g.d0 ≤ 0.0 then g.ds1 else g.d0) = gridStart g := by rw [zero_lit]; rfl
  have hf : F.Approx (fun i => ((G i).d1 - (if (G i).d0 ≤ 0.0 then (G i).ds1 else (G i).d0)) / (G i).ds1 + 1.75) ((g.d1 - gridStart g) / g.ds1 + 1.75) :=
    ((h.d1.sub hS).div h.ds1 p1.ne').add (Refining.Approx.lit _ _ _)
  have e1 : (1.75 : ℝ) = 7 / 4 := by norm_num
  have e2 : (0.75 : ℝ) = 3 / 4 := by norm_num
  have fl := hf.floor (by rw [e1]; exact c.first)
  rw [e1] at fl
  have fl' : ∀ᶠ i in l, PyNum.floor (((G i).d1 - (if (G i).d0 ≤ 0.0 then (G i).ds1 else (G i).d0)) / (G i).ds1 + 1.75) = gridCount g := fl
  have hR : F.Approx (fun i => (if (G i).d0 ≤ 0.0 then (G i).ds1 else (G i).d0) + PyNum.ofInt (PyNum.floor (((G i).d1 - (if (G i).d0 ≤ 0.0 then (G i).ds1 else (G i).d0)) / (G i).ds1 + 1.75) - 1) * (G i).ds1)
      (gridReach g) := by
    unfold gridReach
    have := hS.add ((Refining.Approx.whole F (gridCount g - 1)).mul h.ds1)
    push_cast at this
    refine this.congr ?_
    filter_upwards [fl'] with i hi
    rw [hi]
  have ec : (PyNum.floor ((g.d1 - gridStart g) / g.ds1 + 1.75) : ℤ) = gridCount g := by rw [rfloor, e1]; rfl
  have er : gridStart g + PyNum.ofInt (gridCount g - 1) * g.ds1 = gridReach g := by rw [rofInt]; unfold gridReach; push_cast; rfl
  have ex := plan_eq (g := g) (by rw [es, zero_lit]; exact not_le.2 p2) (by rw [es, zero_lit]; push Not; exact ⟨p3, p1⟩)
  rw [es, ec, er, zero_lit] at ex
  have d1 := hS.le_iff z p2.ne'
  have d2 := h.d1.le_iff hS p3.ne'
  have d3 := h.ds1.le_iff z p1.ne'
  have d4 := h.d2.le_iff hR c.join
  have d5 := h.ds2.le_iff z c.step
  have app := fun i (k1 : ((if (G i).d0 ≤ 0.0 then (G i).ds1 else (G i).d0) ≤ 0.0 ↔ gridStart g ≤ 0)) (k2 : ((G i).d1 ≤ (if (G i).d0 ≤ 0.0 then (G i).ds1 else (G i).d0) ↔ g.d1 ≤ gridStart g))
      (k3 : ((G i).ds1 ≤ 0.0 ↔ g.ds1 ≤ 0)) => plan_eq (g := G i) (fun w => absurd (k1.1 w) (not_le.2 p2)) (fun w => w.elim (fun w => absurd (k2.1 w) (not_le.2 p3)) (fun w => absurd (k3.1 w) (not_le.2 p1)))
  by_cases q : g.d2 ≤ gridReach g ∨ g.ds2 ≤ 0
  · rw [if_pos q] at ex
    have ap : ∀ᶠ i in l, (⟨if (G i).d0 ≤ 0.0 then (G i).ds1 else (G i).d0, gridCount g, 0, some (G i).ds1, (G i).ds2⟩ : Plan (α i)) = areaPlan (G i) := by
      filter_upwards [d1, d2, d3, fl', d4, d5] with i j1 j2 j3 k2 k4 k5
      rw [app i j1 j2 j3, if_pos (q.imp k4.2 k5.2), k2]
    rw [ex]
    refine ⟨hS.congr ?_, h.ds2.congr ?_, ?_, ?_, (OptApx.some h.ds1).congr ?_⟩
    all_goals (filter_upwards [ap] with i k; rw [← k])
  · rw [if_neg q, rfloor] at ex
    push Not at q
    have hf2 : F.Approx (fun i => ((G i).d2 - ((if (G i).d0 ≤ 0.0 then (G i).ds1 else (G i).d0) + PyNum.ofInt (PyNum.floor (((G i).d1 - (if (G i).d0 ≤ 0.0 then (G i).ds1 else (G i).d0)) / (G i).ds1 + 1.75) - 1) * (G i).ds1)) / (G i).ds2 + 0.75)
        ((g.d2 - gridReach g) / g.ds2 + 0.75) := ((h.d2.sub hR).div h.ds2 q.2.ne').add (Refining.Approx.lit _ _ _)
    have fl2 := hf2.floor (by rw [e2]; exact c.second q.1)
    have ap : ∀ᶠ i in l, (⟨if (G i).d0 ≤ 0.0 then (G i).ds1 else (G i).d0, gridCount g + ⌊(g.d2 - gridReach g) / g.ds2 + 0.75⌋, gridCount g, some (G i).ds1, (G i).ds2⟩ : Plan (α i)) = areaPlan (G i) := by
      filter_upwards [d1, d2, d3, fl', fl2, d4, d5] with i j1 j2 j3 k2 k3 k4 k5
      rw [app i j1 j2 j3, if_neg (not_or.2 ⟨mt k4.1 (not_le.2 q.1), mt k5.1 (not_le.2 q.2)⟩), k3, k2]
    rw [ex]
    refine ⟨hS.congr ?_, h.ds2.congr ?_, ?_, ?_, (OptApx.some h.ds1).congr ?_⟩
    all_goals (filter_upwards [ap] with i k; rw [← k])

/-! ### Distances of the exact run -/

theorem turns_of_rows {L : Link} {x y : ℝ} {z : List (Int × ℝ)} (hz : z ≠ []) {ndc : Int} {e : ℝ} (hn : ndc ≤ 0 ∨ 0 < e) (k : Nat) {jd : Int} (hj : 0 ≤ jd) {d t : ℝ} (pd : 0 < d) (pt : 0 < t)
    {q r : PropSt ℝ} {rows : List (AreaRow ℝ)} (h : areaLoop x y z ndc e k jd d t q = .ok (rows, r)) (hc : ∀ row ∈ rows, L.Clear (1000 * row.distance_km)) :
    TurnsClear L ndc e k jd d t := by
  induction k generalizing jd d t q rows r with
  | zero => trivial
  | succ k ih =>
    unfold areaLoop at h
    obtain ⟨q1, -, h⟩ := bind_eq_ok.1 h
    obtain ⟨fs, -, h⟩ := bind_eq_ok.1 h
    obtain ⟨⟨r1, q2⟩, h1, h⟩ := bind_eq_ok.1 h
    obtain ⟨⟨r2, q3⟩, h2, h⟩ := bind_eq_ok.1 h
    dsimp only at h
    rw [pure_ok, ok_inj] at h
    obtain ⟨rfl, rfl⟩ := Prod.mk.inj h
    have pt' : 0 < if jd + 1 = ndc then e else t := by
      split_ifs with c
      · exact hn.resolve_left (by omega)
      · exact pt
    refine ⟨pd, ?_, ih (by omega) (by linarith) pt' h2 (fun row hr => hc row (by simp [hr]))⟩
    obtain ⟨c, cs, rfl⟩ := List.exists_cons_of_ne_nil hz
    unfold areaInner at h1
    obtain ⟨⟨a, q4⟩, -, h1⟩ := bind_eq_ok.1 h1
    obtain ⟨⟨r3, q5⟩, -, h1⟩ := bind_eq_ok.1 h1
    dsimp only at h1
    rw [pure_ok, ok_inj] at h1
    obtain ⟨rfl, -⟩ := Prod.mk.inj h1
    have := hc _ (List.mem_append_left _ (List.mem_cons_self ..))
    dsimp only at this
    rwa [show (1000.0 : ℝ) = 1000 by norm_num, mul_comm]

end Itm
