import Verif.Spec.Precision
import Verif.Lemmas.Basic
import Mathlib.Analysis.Calculus.Deriv.Basic
import Mathlib.Analysis.Calculus.Deriv.Inv
import Mathlib.Analysis.SpecialFunctions.Sqrt
import Mathlib.Analysis.SpecialFunctions.ExpDeriv
import Mathlib.Analysis.SpecialFunctions.Log.Deriv
import Mathlib.Analysis.SpecialFunctions.Trigonometric.Deriv
import Mathlib.Tactic.Push

/-! Calculus of approximations in arithmetics of growing precision. -/

namespace Itm
open Itm.Spec Filter Asymptotics Topology

variable {ι : Type} {l : Filter ι} {α : ι → Type} [∀ i, PyNum (α i)] {ε : ι → ℝ}

/-- Real numbers with an error of order `ε`. -/
def Vlim (l : Filter ι) (ε : ι → ℝ) (v : ι → ℝ) (x : ℝ) : Prop := (fun i => v i - x) =O[l] ε

namespace Vlim
variable {v w : ι → ℝ} {x y : ℝ}

theorem tendsto (h : Vlim l ε v x) (hε : Tendsto ε l (𝓝 0)) : Tendsto v l (𝓝 x) := by
  have := h.trans_tendsto hε
  have := this.add_const x
  simpa using this

theorem const (x : ℝ) : Vlim l ε (fun _ => x) x := by
  unfold Vlim; simp only [sub_self]; exact isBigO_zero _ _

theorem add (h : Vlim l ε v x) (k : Vlim l ε w y) : Vlim l ε (fun i => v i + w i) (x + y) := by
  have := IsBigO.add h k
  refine this.congr_left (fun i => ?_)
  ring

theorem neg (h : Vlim l ε v x) : Vlim l ε (fun i => -v i) (-x) := by
  have := IsBigO.neg_left h
  refine this.congr_left (fun i => ?_)
  ring

theorem sub (h : Vlim l ε v x) (k : Vlim l ε w y) : Vlim l ε (fun i => v i - w i) (x - y) := by
  have := IsBigO.sub h k
  refine this.congr_left (fun i => ?_)
  ring

theorem comp {g : ℝ → ℝ} {g' : ℝ} (hε : Tendsto ε l (𝓝 0)) (h : Vlim l ε v x) (hg : HasDerivAt g g' x) : Vlim l ε (fun i => g (v i)) (g x) := by
  have h1 := hg.isBigO_sub
  exact (h1.comp_tendsto (h.tendsto hε)).trans h

theorem mul (hε : Tendsto ε l (𝓝 0)) (h : Vlim l ε v x) (k : Vlim l ε w y) : Vlim l ε (fun i => v i * w i) (x * y) := by
  have b : v =O[l] (fun _ => (1 : ℝ)) := (h.tendsto hε).isBigO_one ℝ
  have e1 : (fun i => v i * (w i - y)) =O[l] ε := by
    have := b.mul k
    simpa using this
  have e2 : (fun i => y * (v i - x)) =O[l] ε := IsBigO.const_mul_left h y
  refine (e1.add e2).congr_left (fun i => ?_)
  ring

theorem abs (h : Vlim l ε v x) : Vlim l ε (fun i => |v i|) |x| := by
  refine IsBigO.trans (IsBigO.of_bound 1 (Eventually.of_forall fun i => ?_)) h
  rw [one_mul, Real.norm_eq_abs, Real.norm_eq_abs]
  exact abs_abs_sub_abs_le (v i) x

theorem div (hε : Tendsto ε l (𝓝 0)) (h : Vlim l ε v x) (k : Vlim l ε w y) (hy : y ≠ 0) : Vlim l ε (fun i => v i / w i) (x / y) := by
  have := h.mul hε (k.comp hε (hasDerivAt_inv hy))
  simpa only [div_eq_mul_inv] using this

end Vlim

variable {F : Refining l α ε}

/-- The values of approximating numbers. -/
def vals (F : Refining l α ε) (a : ∀ i, α i) (i : ι) : ℝ := (F.arith i).val (a i)

theorem approx_iff {a : ∀ i, α i} {x : ℝ} : F.Approx a x ↔ (∀ᶠ i in l, (F.arith i).fin (a i)) ∧ Vlim l ε (vals F a) x := Iff.rfl

namespace Spec.Refining.Approx
variable {a b : ∀ i, α i} {x y : ℝ}

theorem vlim (h : F.Approx a x) : Vlim l ε (vals F a) x := h.2
theorem fin (h : F.Approx a x) : ∀ᶠ i in l, (F.arith i).fin (a i) := h.1
theorem tendsto (h : F.Approx a x) : Tendsto (vals F a) l (𝓝 x) := h.vlim.tendsto F.tends

theorem congr (h : F.Approx a x) (e : ∀ᶠ i in l, a i = b i) : F.Approx b x := by
  refine ⟨?_, ?_⟩
  · filter_upwards [h.1, e] with i h1 h2
    rwa [← h2]
  · refine h.2.congr' ?_ (EventuallyEq.refl _ _)
    filter_upwards [e] with i h2
    rw [h2]

/-- An accurate operation on approximations of its exact result. -/
theorem of_accurate {r : ∀ i, α i} {v : ι → ℝ} (hv : Vlim l ε v x)
    (h : ∀ᶠ i in l, Accurate (F.arith i).fin (F.arith i).val (ε i) (r i) (v i)) : F.Approx r x := by
  have hb : ∀ᶠ i in l, |v i| ≤ |x| + 1 := by
    have := (hv.tendsto F.tends).abs
    exact (this.eventually (gt_mem_nhds (show |x| < |x| + 1 by linarith))).mono fun i hi => le_of_lt hi
  have hε : ∀ᶠ i in l, |x| + 1 ≤ 1 / ε i := by
    have h0 : (0 : ℝ) < 1 / (|x| + 1) := by positivity
    have := F.tends.eventually (gt_mem_nhds h0)
    filter_upwards [this] with i hi
    have := F.pos i
    rw [le_div_iff₀ this]
    rw [lt_div_iff₀ (by positivity)] at hi
    linarith
  have key : ∀ᶠ i in l, (F.arith i).fin (r i) ∧ |(F.arith i).val (r i) - v i| ≤ ε i * (1 + |v i|) := by
    filter_upwards [h, hb, hε] with i h1 h2 h3
    exact h1 (h2.trans h3)
  refine ⟨key.mono fun i hi => hi.1, ?_⟩
  have e1 : (fun i => (F.arith i).val (r i) - v i) =O[l] ε := by
    refine IsBigO.of_bound (|x| + 2) ?_
    filter_upwards [key, hb] with i h1 h2
    have p := F.pos i
    rw [Real.norm_eq_abs, Real.norm_eq_abs, abs_of_pos p]
    have := mul_le_mul_of_nonneg_left (show 1 + |v i| ≤ |x| + 2 by linarith) p.le
    linarith [h1.2]
  refine (e1.add hv).congr_left (fun i => ?_)
  ring

theorem lit (m : ℕ) (s : Bool) (e : ℕ) : F.Approx (fun _ => OfScientific.ofScientific m s e) (OfScientific.ofScientific m s e) :=
  of_accurate (Vlim.const _) (Eventually.of_forall fun i => (F.arith i).lit m s e)

theorem add (h : F.Approx a x) (k : F.Approx b y) : F.Approx (fun i => a i + b i) (x + y) :=
  of_accurate (h.vlim.add k.vlim) (by filter_upwards [h.1, k.1] with i h1 h2 using (F.arith i).add _ _ h1 h2)

theorem sub (h : F.Approx a x) (k : F.Approx b y) : F.Approx (fun i => a i - b i) (x - y) :=
  of_accurate (h.vlim.sub k.vlim) (by filter_upwards [h.1, k.1] with i h1 h2 using (F.arith i).sub _ _ h1 h2)

theorem mul (h : F.Approx a x) (k : F.Approx b y) : F.Approx (fun i => a i * b i) (x * y) :=
  of_accurate (h.vlim.mul F.tends k.vlim) (by filter_upwards [h.1, k.1] with i h1 h2 using (F.arith i).mul _ _ h1 h2)

theorem ne_zero (k : F.Approx b y) (hy : y ≠ 0) : ∀ᶠ i in l, (F.arith i).val (b i) ≠ 0 :=
  k.tendsto.eventually_ne hy

theorem pos (k : F.Approx b y) (hy : 0 < y) : ∀ᶠ i in l, 0 < (F.arith i).val (b i) :=
  k.tendsto.eventually (lt_mem_nhds hy)

theorem div (h : F.Approx a x) (k : F.Approx b y) (hy : y ≠ 0) : F.Approx (fun i => a i / b i) (x / y) :=
  of_accurate (h.vlim.div F.tends k.vlim hy) (by
    filter_upwards [h.1, k.1, k.ne_zero hy] with i h1 h2 h3 using (F.arith i).div _ _ h1 h2 h3)

theorem neg (h : F.Approx a x) : F.Approx (fun i => -a i) (-x) := by
  refine ⟨h.1.mono fun i hi => ((F.arith i).neg _ hi).1, ?_⟩
  refine h.vlim.neg.congr' ?_ (EventuallyEq.refl _ _)
  filter_upwards [h.1] with i hi
  rw [((F.arith i).neg _ hi).2]; rfl

theorem abs (h : F.Approx a x) : F.Approx (fun i => PyNum.abs (a i)) (PyNum.abs x) := by
  refine ⟨h.1.mono fun i hi => ((F.arith i).abs _ hi).1, ?_⟩
  refine h.vlim.abs.congr' ?_ (EventuallyEq.refl _ _)
  filter_upwards [h.1] with i hi
  rw [((F.arith i).abs _ hi).2]; rfl

theorem exp (h : F.Approx a x) : F.Approx (fun i => PyNum.exp (a i)) (PyNum.exp x) :=
  of_accurate (h.vlim.comp F.tends (Real.hasDerivAt_exp x)) (by filter_upwards [h.1] with i h1 using (F.arith i).exp _ h1)

theorem sin (h : F.Approx a x) : F.Approx (fun i => PyNum.sin (a i)) (PyNum.sin x) :=
  of_accurate (h.vlim.comp F.tends (Real.hasDerivAt_sin x)) (by filter_upwards [h.1] with i h1 using (F.arith i).sin _ h1)

theorem cos (h : F.Approx a x) : F.Approx (fun i => PyNum.cos (a i)) (PyNum.cos x) :=
  of_accurate (h.vlim.comp F.tends (Real.hasDerivAt_cos x)) (by filter_upwards [h.1] with i h1 using (F.arith i).cos _ h1)

theorem log (h : F.Approx a x) (hx : 0 < x) : F.Approx (fun i => PyNum.log (a i)) (PyNum.log x) :=
  of_accurate (h.vlim.comp F.tends (Real.hasDerivAt_log hx.ne')) (by
    filter_upwards [h.1, h.pos hx] with i h1 h2 using (F.arith i).log _ h1 h2)

theorem sqrt (h : F.Approx a x) (hx : 0 < x) : F.Approx (fun i => PyNum.sqrt (a i)) (PyNum.sqrt x) :=
  of_accurate (h.vlim.comp F.tends (Real.hasDerivAt_sqrt hx.ne')) (by
    filter_upwards [h.1, h.pos hx] with i h1 h2 using (F.arith i).sqrt _ h1 h2.le)

theorem rpow (h : F.Approx a x) (k : F.Approx b y) (hx : 0 < x) : F.Approx (fun i => PyNum.rpow (a i) (b i)) (PyNum.rpow x y) := by
  have e := ((h.vlim.comp F.tends (Real.hasDerivAt_log hx.ne')).mul F.tends k.vlim).comp F.tends (Real.hasDerivAt_exp _)
  rw [← Real.rpow_def_of_pos hx] at e
  have e' : Vlim l ε (fun i => (F.arith i).val (a i) ^ (F.arith i).val (b i)) (x ^ y) := by
    refine IsBigO.congr' e ?_ (EventuallyEq.refl _ _)
    filter_upwards [h.pos hx] with i hi
    rw [Real.rpow_def_of_pos hi]; rfl
  exact of_accurate e' (by filter_upwards [h.1, k.1, h.pos hx] with i h1 h2 h3 using (F.arith i).rpow _ _ h1 h2 h3)

/-- A comparison with a clear outcome is decided alike. -/
theorem lt_iff (h : F.Approx a x) (k : F.Approx b y) (hne : x ≠ y) : ∀ᶠ i in l, (a i < b i ↔ x < y) := by
  rcases lt_or_gt_of_ne hne with hl | hl
  · filter_upwards [h.1, k.1, h.tendsto.eventually_lt k.tendsto hl] with i h1 h2 h3
    rw [(F.arith i).lt _ _ h1 h2]
    exact ⟨fun _ => hl, fun _ => h3⟩
  · filter_upwards [h.1, k.1, k.tendsto.eventually_lt h.tendsto hl] with i h1 h2 h3
    rw [(F.arith i).lt _ _ h1 h2]
    exact ⟨fun c => absurd c (not_lt.2 h3.le), fun c => absurd c (not_lt.2 hl.le)⟩

theorem le_iff (h : F.Approx a x) (k : F.Approx b y) (hne : x ≠ y) : ∀ᶠ i in l, (a i ≤ b i ↔ x ≤ y) := by
  rcases lt_or_gt_of_ne hne with hl | hl
  · filter_upwards [h.1, k.1, h.tendsto.eventually_lt k.tendsto hl] with i h1 h2 h3
    rw [(F.arith i).le _ _ h1 h2]
    exact ⟨fun _ => hl.le, fun _ => le_of_lt h3⟩
  · filter_upwards [h.1, k.1, k.tendsto.eventually_lt h.tendsto hl] with i h1 h2 h3
    rw [(F.arith i).le _ _ h1 h2]
    exact ⟨fun c => absurd c (not_le.2 h3), fun c => absurd c (not_le.2 hl)⟩

theorem pyEq_not (h : F.Approx a x) (k : F.Approx b y) (hne : x ≠ y) : ∀ᶠ i in l, ¬ pyEq (a i) (b i) := by
  filter_upwards [h.le_iff k hne, k.le_iff h hne.symm] with i h1 h2 c
  exact hne (le_antisymm (h1.1 c.1) (h2.1 c.2))

/-- Choosing, in any way, between two approximations of the same number. -/
theorem choose {c : ι → Prop} [∀ i, Decidable (c i)] (h : F.Approx a x) (k : F.Approx b x) : F.Approx (fun i => if c i then a i else b i) x := by
  refine ⟨?_, ?_⟩
  · filter_upwards [h.1, k.1] with i h1 h2
    split_ifs <;> assumption
  · obtain ⟨C, hC⟩ := h.2.bound
    obtain ⟨K, hK⟩ := k.2.bound
    refine IsBigO.of_bound (max C K) ?_
    filter_upwards [hC, hK] with i h1 h2
    have e0 := norm_nonneg (ε i)
    split_ifs
    · exact h1.trans (mul_le_mul_of_nonneg_right (le_max_left _ _) e0)
    · exact h2.trans (mul_le_mul_of_nonneg_right (le_max_right _ _) e0)

theorem pyMax (h : F.Approx a x) (k : F.Approx b y) : F.Approx (fun i => pyMax (a i) (b i)) (pyMax x y) := by
  rw [pyMax_real]
  unfold Itm.pyMax
  by_cases e : x = y
  · subst e; rw [max_self]; exact k.choose h
  · rcases lt_or_gt_of_ne e with hl | hl
    · rw [max_eq_right hl.le]
      refine k.congr ?_
      filter_upwards [h.lt_iff k e] with i hi
      rw [if_pos (hi.2 hl)]
    · rw [max_eq_left hl.le]
      refine h.congr ?_
      filter_upwards [h.lt_iff k e] with i hi
      rw [if_neg (fun c => absurd (hi.1 c) (not_lt.2 hl.le))]

theorem pyMin (h : F.Approx a x) (k : F.Approx b y) : F.Approx (fun i => pyMin (a i) (b i)) (pyMin x y) := by
  rw [pyMin_real]
  unfold Itm.pyMin
  by_cases e : y = x
  · subst e; rw [min_self]; exact k.choose h
  · rcases lt_or_gt_of_ne e with hl | hl
    · rw [min_eq_right hl.le]
      refine k.congr ?_
      filter_upwards [k.lt_iff h e] with i hi
      rw [if_pos (hi.2 hl)]
    · rw [min_eq_left hl.le]
      refine h.congr ?_
      filter_upwards [k.lt_iff h e] with i hi
      rw [if_neg (fun c => absurd (hi.1 c) (not_lt.2 hl.le))]

theorem npow (h : F.Approx a x) (n : ℕ) : F.Approx (fun i => npow (a i) n) (npow x n) := by
  induction n with
  | zero => exact lit 10 true 1
  | succ n ih => exact ih.mul h

end Spec.Refining.Approx

/-! ### Calls -/

/-- If the exact call returns, so do finally the approximate ones, with results related by `Q`. -/
def Follows (l : Filter ι) {β : ι → Type} {γ : Type} (Q : (∀ i, β i) → γ → Prop) (m : ∀ i, Py (β i)) (r : Py γ) : Prop :=
  ∀ x, r = .ok x → ∃ b, (∀ᶠ i in l, m i = .ok (b i)) ∧ Q b x

namespace Follows
variable {β β' : ι → Type} {γ γ' : Type} {Q : (∀ i, β i) → γ → Prop} {Q' : (∀ i, β' i) → γ' → Prop}

theorem pure {b : ∀ i, β i} {x : γ} (h : Q b x) : Follows l Q (fun i => (pure (b i) : Py (β i))) (pure x) := by
  intro y hy
  rw [pure_ok, ok_inj] at hy
  subst hy
  exact ⟨b, Eventually.of_forall fun i => rfl, h⟩

theorem ok {b : ∀ i, β i} {x : γ} (h : Q b x) : Follows l Q (fun i => (.ok (b i) : Py (β i))) (.ok x) := pure h

theorem bind {m : ∀ i, Py (β i)} {r : Py γ} {f : ∀ i, β i → Py (β' i)} {g : γ → Py γ'} (h : Follows l Q m r)
    (k : ∀ b x, r = .ok x → Q b x → Follows l Q' (fun i => f i (b i)) (g x)) : Follows l Q' (fun i => m i >>= f i) (r >>= g) := by
  intro y hy
  obtain ⟨x, hx, hy⟩ := bind_eq_ok.1 hy
  obtain ⟨b, hb, hq⟩ := h x hx
  obtain ⟨c, hc, hq'⟩ := k b x hx hq y hy
  refine ⟨c, ?_, hq'⟩
  filter_upwards [hb, hc] with i h1 h2
  rw [h1, ok_bind, h2]

theorem congr {m m' : ∀ i, Py (β i)} {r : Py γ} (h : Follows l Q m r) (e : ∀ᶠ i in l, m i = m' i) : Follows l Q m' r := by
  intro y hy
  obtain ⟨b, hb, hq⟩ := h y hy
  refine ⟨b, ?_, hq⟩
  filter_upwards [hb, e] with i h1 h2
  rw [← h2, h1]

/-- A branch whose condition is finally decided as in the exact run. -/
theorem ite {c : ι → Prop} {c' : Prop} {_ : ∀ i, Decidable (c i)} {_ : Decidable c'} {m n : ∀ i, Py (β i)} {r s : Py γ} (hc : ∀ᶠ i in l, (c i ↔ c'))
    (h1 : c' → Follows l Q m r) (h2 : ¬ c' → Follows l Q n s) : Follows l Q (fun i => if c i then m i else n i) (if c' then r else s) := by
  by_cases k : c'
  · rw [if_pos k]
    refine (h1 k).congr ?_
    filter_upwards [hc] with i hi
    rw [if_pos (hi.2 k)]
  · rw [if_neg k]
    refine (h2 k).congr ?_
    filter_upwards [hc] with i hi
    rw [if_neg (fun q => k (hi.1 q))]

variable {a b : ∀ i, α i} {x y : ℝ}

theorem div (h : F.Approx a x) (k : F.Approx b y) : Follows l F.Approx (fun i => a i /! b i) (x /! y) := by
  intro v hv
  obtain ⟨hy, rfl⟩ := pyDiv_eq_ok.1 hv
  refine ⟨_, ?_, h.div k hy⟩
  have z : F.Approx (fun i => (0.0 : α i)) 0 := by have := Refining.Approx.lit (F := F) 0 true 1; rwa [show (OfScientific.ofScientific 0 true 1 : ℝ) = 0 by norm_num] at this
  filter_upwards [k.pyEq_not z hy] with i hi
  unfold pyDiv
  rw [if_neg hi]

theorem zero : F.Approx (fun i => (0.0 : α i)) 0 := by
  have := Refining.Approx.lit (F := F) 0 true 1
  rwa [show (OfScientific.ofScientific 0 true 1 : ℝ) = 0 by norm_num] at this

theorem sqrt (h : F.Approx a x) (hx : x ≠ 0) : Follows l F.Approx (fun i => mathSqrt (a i)) (mathSqrt x) := by
  intro v hv
  obtain ⟨h0, rfl⟩ := mathSqrt_eq_ok.1 hv
  have p : 0 < x := lt_of_le_of_ne h0 hx.symm
  refine ⟨_, ?_, h.sqrt p⟩
  filter_upwards [h.lt_iff zero hx] with i hi
  unfold mathSqrt
  rw [if_neg (fun c => absurd (hi.1 c) (not_lt.2 h0))]

theorem log (h : F.Approx a x) : Follows l F.Approx (fun i => npLog (a i)) (npLog x) := by
  intro v hv
  obtain ⟨p, rfl⟩ := npLog_eq_ok.1 hv
  refine ⟨_, ?_, h.log p⟩
  filter_upwards [(zero (F := F)).lt_iff h p.ne] with i hi
  unfold npLog
  rw [if_pos (hi.2 p)]

theorem pow (h : F.Approx a x) (k : F.Approx b y) (hx : x ≠ 0) : Follows l F.Approx (fun i => pyPow (a i) (b i)) (pyPow x y) := by
  intro v hv
  obtain ⟨h0, -, rfl⟩ := pyPow_eq_ok.1 hv
  have p : 0 < x := lt_of_le_of_ne h0 hx.symm
  refine ⟨_, ?_, h.rpow k p⟩
  filter_upwards [h.lt_iff zero hx, h.pyEq_not zero hx] with i hi hj
  unfold pyPow
  rw [if_neg (fun c => absurd (hi.1 c) (not_lt.2 h0)), if_neg (fun c => hj c.1)]

end Follows

end Itm

namespace Itm
open Itm.Spec Filter Asymptotics Topology

theorem ev_or {ι : Type} {l : Filter ι} {p q : ι → Prop} {p' q' : Prop} (h : ∀ᶠ i in l, (p i ↔ p')) (k : ∀ᶠ i in l, (q i ↔ q')) :
    ∀ᶠ i in l, ((p i ∨ q i) ↔ (p' ∨ q')) := by
  filter_upwards [h, k] with i a b using or_congr a b

theorem ev_and {ι : Type} {l : Filter ι} {p q : ι → Prop} {p' q' : Prop} (h : ∀ᶠ i in l, (p i ↔ p')) (k : ∀ᶠ i in l, (q i ↔ q')) :
    ∀ᶠ i in l, ((p i ∧ q i) ↔ (p' ∧ q')) := by
  filter_upwards [h, k] with i a b using and_congr a b

theorem ev_not {ι : Type} {l : Filter ι} {p : ι → Prop} {p' : Prop} (h : ∀ᶠ i in l, (p i ↔ p')) : ∀ᶠ i in l, (¬ p i ↔ ¬ p') := by
  filter_upwards [h] with i a using not_congr a

/-- Compose approximations along the operations of an expression. -/
macro "appr" : tactic => `(tactic| repeat' first
  | assumption
  | exact Spec.Refining.Approx.lit _ _ _
  | apply Spec.Refining.Approx.pyMax
  | apply Spec.Refining.Approx.pyMin
  | apply Spec.Refining.Approx.npow
  | apply Spec.Refining.Approx.exp
  | apply Spec.Refining.Approx.sin
  | apply Spec.Refining.Approx.cos
  | apply Spec.Refining.Approx.abs
  | apply Spec.Refining.Approx.neg
  | apply Spec.Refining.Approx.mul
  | apply Spec.Refining.Approx.add
  | apply Spec.Refining.Approx.sub
  | apply Spec.Refining.Approx.div)

end Itm
