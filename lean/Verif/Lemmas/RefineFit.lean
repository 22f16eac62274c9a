import Verif.Model.Prep
import Verif.Lemmas.RefineArea
import Verif.Lemmas.Dlthx
import Verif.Lemmas.FitStable
import Verif.Spec.PathClear

/-! `zlsq1` and `dlthx` in arithmetics of growing precision. -/

namespace Itm
open Itm.Spec Filter Asymptotics Topology

variable {ι : Type} {l : Filter ι} {α : ι → Type} [∀ i, PyNum (α i)] {ε : ι → ℝ} {F : Refining l α ε}

/-! ### Reading -/

section
variable {β : ι → Type} {γ : Type} {Q : (∀ i, β i) → γ → Prop}

theorem refine_pyGet {A : ∀ i, List (β i)} {a : List γ} (hl : ∀ᶠ i in l, (A i).length = a.length)
    (h : ∀ (j : ℕ) (x : γ), a[j]? = some x → ∃ b, (∀ᶠ i in l, (A i)[j]? = some (b i)) ∧ Q b x) (k : Int) :
    Follows l Q (fun i => pyGet (A i) k) (pyGet a k) := by
  intro x hx
  unfold pyGet at hx
  dsimp only at hx
  split_ifs at hx with c1 c2
  all_goals
    split at hx
    · rename_i y hy
      rw [ok_inj] at hx
      subst hx
      obtain ⟨b, hb, q⟩ := h _ _ hy
      refine ⟨b, ?_, q⟩
      filter_upwards [hb, hl] with i h1 h2
      unfold pyGet
      simp only [h2, c1, if_true, if_false]
      first
        | rw [if_neg c2, h1]
        | rw [h1]
    · exact absurd hx (by simp)

end

theorem Spec.PflApx.get {P : ∀ i, Pfl (α i)} {p : Pfl ℝ} (h : PflApx F P p) (k : Int) : Follows l F.Approx (fun i => (P i).get k) (p.get k) := by
  unfold Pfl.get
  refine refine_pyGet ?_ ?_ k
  · filter_upwards [h.len] with i hi
    simp [Pfl.flat, hi]
  · intro j x hx
    match j with
    | 0 =>
      obtain rfl := Option.some.inj (show some (PyNum.ofInt p.np : ℝ) = some x from hx)
      refine ⟨fun i => PyNum.ofInt (P i).np, Eventually.of_forall fun i => rfl, ?_⟩
      refine (Refining.Approx.whole F p.np).congr ?_
      filter_upwards [h.np] with i hi
      rw [hi]
    | 1 =>
      obtain rfl := Option.some.inj (show some p.xi = some x from hx)
      exact ⟨fun i => (P i).xi, Eventually.of_forall fun i => rfl, h.xi⟩
    | j + 2 => exact h.z j x hx

/-! ### Truncation -/

theorem Spec.OffGrid.neg {x : ℝ} (h : OffGrid x) : OffGrid (-x) := fun k e => h (-k) (by push_cast; linarith)

theorem Spec.OffGrid.add {x : ℝ} (h : OffGrid x) (m : ℤ) : OffGrid (x + m) := fun k e => h (k - m) (by push_cast; linarith)

theorem Spec.OffGrid.ne_zero {x : ℝ} (h : OffGrid x) : x ≠ 0 := fun e => h 0 (by push_cast; exact e)

theorem refine_pyInt {A : ∀ i, α i} {x : ℝ} (h : F.Approx A x) (c : OffGrid x) : ∀ᶠ i in l, pyInt (A i) = pyInt x := by
  unfold pyInt
  filter_upwards [h.lt_iff Follows.zero c.ne_zero, h.floor c, h.neg.floor c.neg] with i h1 h2 h3
  rw [h2, h3, zero_lit]
  simp only [h1]
  rfl

theorem zero_val (F : Refining l α ε) : ∀ᶠ i in l, (F.arith i).fin (0.0 : α i) ∧ (F.arith i).val (0.0 : α i) = 0 := by
  refine Eventually.of_forall fun i => ?_
  have := (F.arith i).whole 0 true 1 0 (by norm_num) (by
    have := F.pos i
    push_cast; rw [abs_zero]; positivity)
  exact_mod_cast this

theorem refine_trunc {A : ∀ i, α i} {x : ℝ} (h : F.Approx A x) (c : x ≤ 0 ∨ OffGrid x) :
    ∀ᶠ i in l, pyInt (pyMax (A i) 0.0) = pyInt (pyMax x 0.0) := by
  by_cases hx : x ≤ 0
  · have e : pyInt (pyMax x (0.0 : ℝ)) = 0 := by
      rw [pyMax_real, zero_lit, max_eq_right hx, pyInt_nonneg le_rfl, Int.floor_zero]
    rw [e]
    filter_upwards [h.fin, zero_val F, h.tendsto.eventually (gt_mem_nhds (lt_of_le_of_lt hx one_pos))] with i h1 h2 h3
    unfold pyMax pyInt
    have lt0 : ¬ (0.0 : α i) < 0.0 := by rw [(F.arith i).lt _ _ h2.1 h2.1]; exact lt_irrefl _
    by_cases q : A i < 0.0
    · rw [if_pos q, if_neg lt0, (F.arith i).floor _ h2.1, h2.2, Int.floor_zero]
    · rw [if_neg q, if_neg q, (F.arith i).floor _ h1]
      rw [(F.arith i).lt _ _ h1 h2.1, h2.2, not_lt] at q
      rw [Int.floor_eq_zero_iff]
      exact ⟨q, h3⟩
  · have c := c.resolve_left hx
    have hx := not_le.1 hx
    refine refine_pyInt (h.pyMax (Refining.Approx.lit _ _ _)) ?_
    rw [pyMax_real, show (OfScientific.ofScientific 0 true 1 : ℝ) = 0 by norm_num, max_eq_left hx.le]
    exact c

/-! ### zlsq1 -/

/-- Approximation of pairs. -/
def Duo (F : Refining l α ε) (b : ∀ i, α i × α i) (x : ℝ × ℝ) : Prop := F.Approx (fun i => (b i).1) x.1 ∧ F.Approx (fun i => (b i).2) x.2

theorem refine_zlsqLoop {P : ∀ i, Pfl (α i)} {p : Pfl ℝ} (h : PflApx F P p) : ∀ (k : ℕ) (ja : Int) {X A B : ∀ i, α i} {x a b : ℝ},
    F.Approx X x → F.Approx A a → F.Approx B b → Follows l (Duo F) (fun i => zlsqLoop (P i) k ja (X i) (A i) (B i)) (zlsqLoop p k ja x a b) := by
  intro k
  induction k with
  | zero => intro ja X A B x a b _ ha hb; exact Follows.pure ⟨ha, hb⟩
  | succ k ih =>
    intro ja X A B x a b hx ha hb
    unfold zlsqLoop
    dsimp only
    refine Follows.bind (h.get _) (fun Z z _ hz => ?_)
    refine Follows.bind (h.get _) (fun Z' z' _ hz' => ?_)
    have hx' := hx.add (Refining.Approx.lit (F := F) 10 true 1)
    exact ih (ja + 1) hx' (ha.add hz) (hb.add (hz'.mul hx'))

/-- Finally equal. -/
def Same (l : Filter ι) {γ : Type} (b : ι → γ) (x : γ) : Prop := ∀ᶠ i in l, b i = x

theorem refine_zlsqWindow {P : ∀ i, Pfl (α i)} {p : Pfl ℝ} (h : PflApx F P p) {X Y : ∀ i, α i} {x y : ℝ} (hx : F.Approx X x) (hy : F.Approx Y y)
    (c1 : x / p.xi ≤ 0 ∨ OffGrid (x / p.xi)) (c2 : (p.np : ℝ) - y / p.xi ≤ 0 ∨ OffGrid ((p.np : ℝ) - y / p.xi)) :
    Follows l (Same l) (fun i => zlsqWindow (P i) (X i) (Y i)) (zlsqWindow p x y) := by
  unfold zlsqWindow
  dsimp only
  refine Follows.bind (Follows.div hx h.xi) (fun U u hu hU => ?_)
  refine Follows.bind (Follows.div hy h.xi) (fun V v hv hV => ?_)
  obtain ⟨-, eu⟩ := pyDiv_eq_ok.1 hu
  obtain ⟨-, ev⟩ := pyDiv_eq_ok.1 hv
  rw [← eu] at c1
  rw [← ev] at c2
  have e1 := refine_trunc hU c1
  have hW := (Refining.Approx.whole F p.np).sub hV
  have e2 := refine_trunc hW c2
  refine Follows.congr (m := fun i => (if p.np - pyInt (pyMax (PyNum.ofInt p.np - v) 0.0) ≤ pyInt (pyMax u 0.0) then
    pure (max (pyInt (pyMax u 0.0) - 1) 0, p.np - max (p.np - (p.np - pyInt (pyMax (PyNum.ofInt p.np - v) 0.0)) + 1) 0)
    else pure (pyInt (pyMax u 0.0), p.np - pyInt (pyMax (PyNum.ofInt p.np - v) 0.0)))) ?_ ?_
  · split_ifs
    · exact Follows.pure (Eventually.of_forall fun _ => rfl)
    · exact Follows.pure (Eventually.of_forall fun _ => rfl)
  · filter_upwards [e1, e2, h.np] with i k1 k2 k3
    rw [k3, k1, k2]
    rfl

theorem refine_zlsqFit {P : ∀ i, Pfl (α i)} {p : Pfl ℝ} (h : PflApx F P p) (ja jb : Int) : Follows l (Duo F) (fun i => zlsqFit (P i) ja jb) (zlsqFit p ja jb) := by
  refine Follows.congr (m := fun i => zlsqFit { P i with np := p.np } ja jb) ?_ ?_
  swap
  · filter_upwards [h.np] with i hi
    rw [← hi]
  have h' : PflApx F (fun i => { P i with np := p.np }) p := ⟨Eventually.of_forall fun _ => rfl, h.len, h.xi, h.z⟩
  unfold zlsqFit
  dsimp only
  have hx : F.Approx (fun i => (-0.5 * PyNum.ofInt (jb - ja) : α i)) (-0.5 * PyNum.ofInt (jb - ja)) :=
    (Refining.Approx.lit (F := F) 5 true 1).neg.mul (Refining.Approx.whole F _)
  refine Follows.bind (h'.get _) (fun ZA za _ hza => ?_)
  refine Follows.bind (h'.get _) (fun ZB zb _ hzb => ?_)
  have hA := (Refining.Approx.lit (F := F) 5 true 1).mul (hza.add hzb)
  have hB := ((Refining.Approx.lit (F := F) 5 true 1).mul (hza.sub hzb)).mul hx
  refine Follows.bind (refine_zlsqLoop h' _ ja hx hA hB) (fun L r _ hL => ?_)
  obtain ⟨A, B⟩ := hL
  refine Follows.bind (Follows.div (B.mul (Refining.Approx.lit (F := F) 120 true 1)) (Refining.Approx.whole F _)) (fun B' b' _ hB' => ?_)
  have hA' : F.Approx (fun i => (if jb - ja = 0 then 0.0 else (L i).1 / PyNum.ofInt (jb - ja) : α i)) (if jb - ja = 0 then 0.0 else r.1 / PyNum.ofInt (jb - ja)) := by
    by_cases e : jb - ja = 0
    · simp only [if_pos e]; exact Refining.Approx.lit _ _ _
    · simp only [if_neg e]
      exact A.div (Refining.Approx.whole F _) (by rw [rofInt]; exact_mod_cast e)
  have hxb := (Refining.Approx.whole F jb).add hx
  exact Follows.pure ⟨hA'.sub (hB'.mul hxb), hA'.add (hB'.mul ((Refining.Approx.whole F p.np).sub hxb))⟩

theorem refine_zlsq1 {P : ∀ i, Pfl (α i)} {p : Pfl ℝ} (h : PflApx F P p) {X Y : ∀ i, α i} {x y : ℝ} (hx : F.Approx X x) (hy : F.Approx Y y)
    (c1 : x / p.xi ≤ 0 ∨ OffGrid (x / p.xi)) (c2 : (p.np : ℝ) - y / p.xi ≤ 0 ∨ OffGrid ((p.np : ℝ) - y / p.xi)) :
    Follows l (Duo F) (fun i => zlsq1 (P i) (X i) (Y i)) (zlsq1 p x y) := by
  unfold zlsq1
  refine Follows.bind (refine_zlsqWindow h hx hy c1 c2) (fun W w _ hW => ?_)
  refine (refine_zlsqFit h w.1 w.2).congr ?_
  filter_upwards [hW] with i hi
  rw [hi]

end Itm
