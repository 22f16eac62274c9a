import Verif.Lemmas.RefineFit

/-! `dlthx` in arithmetics of growing precision. -/

namespace Itm
open Itm.Spec Itm.Props Filter Asymptotics Topology

variable {ι : Type} {l : Filter ι} {α : ι → Type} [∀ i, PyNum (α i)] {ε : ι → ℝ} {F : Refining l α ε}

/-- All elements are approximated at once. -/
theorem ListApx.uniform {A : ∀ i, List (α i)} {xs : List ℝ} (h : ListApx l F.Approx A xs) :
    ∃ C, ∀ᶠ i in l, ∀ (j : ℕ) (x : ℝ) (a : α i), xs[j]? = some x → (A i)[j]? = some a → (F.arith i).fin a ∧ |(F.arith i).val a - x| ≤ C * ε i := by
  induction xs generalizing A with
  | nil => exact ⟨0, Eventually.of_forall fun i j x a hx => by simp at hx⟩
  | cons y ys ih =>
    obtain ⟨b, B, h1, h2, h3⟩ := h
    obtain ⟨C, hC⟩ := ih h3
    obtain ⟨D, hD⟩ := h2.2.bound
    refine ⟨max C D, ?_⟩
    filter_upwards [h1, h2.1, hC, hD] with i k1 k2 k3 k4 j x a hx ha
    have ei := F.pos i
    rw [k1] at ha
    cases j with
    | zero =>
      simp only [List.getElem?_cons_zero, Option.some.injEq] at hx ha
      subst hx; subst ha
      refine ⟨k2, ?_⟩
      rw [Real.norm_eq_abs, Real.norm_eq_abs, abs_of_pos ei] at k4
      exact k4.trans (mul_le_mul_of_nonneg_right (le_max_right _ _) ei.le)
    | succ j =>
      rw [List.getElem?_cons_succ] at hx ha
      obtain ⟨f, e⟩ := k3 j x a hx ha
      exact ⟨f, e.trans (mul_le_mul_of_nonneg_right (le_max_left _ _) ei.le)⟩

theorem qtile_arith {β : Type} [PyNum β] {e : ℝ} (R : Arith β e) {s : List β} (hs : ∀ a ∈ s, R.fin a) {k : ℕ} (hk : k < s.length) :
    ∃ v, qtile s k = .ok v ∧ R.fin v ∧ IsRank (s.map R.val) k (R.val v) := by
  have e : (s.mergeSort fun x y => decide (y ≤ x)).map R.val = (s.map R.val).mergeSort fun x y => decide (y ≤ x) :=
    List.map_mergeSort fun a ha b hb => by
      rw [decide_eq_decide]
      exact R.le _ _ (hs b hb) (hs a ha)
  have hl : k < (s.mergeSort fun x y => decide (y ≤ x)).length := by rw [List.length_mergeSort]; exact hk
  obtain ⟨w, hw, rw'⟩ := C01_qtile_rank (s.map R.val) k (by simpa using hk)
  have hw' : pyGet ((s.map R.val).mergeSort fun x y => decide (y ≤ x)) (k : ℤ) = .ok w := hw
  rw [← e, pyGet_nonneg (by omega) (by simpa using hl)] at hw'
  unfold qtile
  rw [pyGet_nonneg (by omega) (by exact_mod_cast hl)]
  refine ⟨_, rfl, hs _ ((List.mem_mergeSort).1 (List.getElem_mem _)), ?_⟩
  simp only [List.getElem_map, ok_inj] at hw'
  rw [hw']
  exact rw'

theorem map_range_get (xs : List ℝ) : xs = (List.range xs.length).map fun j => xs[j]?.getD 0 := by
  refine List.ext_getElem (by simp) fun j h1 h2 => ?_
  simp [h1]

theorem refine_qtile {A : ∀ i, List (α i)} {xs : List ℝ} (h : ListApx l F.Approx A xs) {k : ℕ} (hk : k < xs.length) :
    Follows l F.Approx (fun i => qtile (A i) k) (qtile xs k) := by
  intro x hx
  obtain ⟨w, hw, rw'⟩ := C01_qtile_rank xs k hk
  rw [hw, ok_inj] at hx
  subst hx
  obtain ⟨C, hC⟩ := h.uniform
  have key : ∀ᶠ i in l, ∃ v, qtile (A i) k = .ok v ∧ (F.arith i).fin v ∧ |(F.arith i).val v - w| ≤ C * ε i := by
    filter_upwards [hC, h.length] with i h1 h2
    have hf : ∀ a ∈ A i, (F.arith i).fin a := by
      intro a ha
      obtain ⟨j, hj, rfl⟩ := List.getElem_of_mem ha
      exact (h1 j (xs[j]'(h2 ▸ hj)) _ (List.getElem?_eq_getElem _) (List.getElem?_eq_getElem hj)).1
    obtain ⟨v, e, f, r⟩ := qtile_arith (F.arith i) hf (k := k) (by omega)
    refine ⟨v, e, f, ?_⟩
    rw [map_range_get xs] at rw'
    rw [map_range_get ((A i).map _), List.length_map, h2] at r
    refine IsRank.near (fun j hj => ?_) rw' r
    have hj' : j < (A i).length := by omega
    have := (h1 j xs[j] (A i)[j] (List.getElem?_eq_getElem hj) (List.getElem?_eq_getElem hj')).2
    simpa [hj, hj'] using this
  refine ⟨fun i => match qtile (A i) k with | .ok v => v | .error _ => 0.0, ?_, ?_, ?_⟩
  · filter_upwards [key] with i ⟨v, e, _⟩
    rw [e]
  · filter_upwards [key] with i ⟨v, e, f, _⟩
    rw [e]; exact f
  · refine IsBigO.of_bound C ?_
    filter_upwards [key] with i ⟨v, e, _, b⟩
    rw [e, Real.norm_eq_abs, Real.norm_eq_abs, abs_of_pos (F.pos i)]
    exact b

/-- The steps to the sample at or behind the position. At a sample point an inexact position may be taken for one just behind it: one step more. -/
theorem refine_dlthxSkip (np : Int) : ∀ (d : ℕ) {X : ∀ i, α i} {x : ℝ} {k : Int}, (np - k).toNat = d → F.Approx X x →
    ∃ (Y : ∀ i, α i) (y : ℝ) (m : ℕ), (∀ᶠ i in l, dlthxSkip np (X i) k = (Y i, k + m) ∨
      (y = 0 ∧ k + m < np ∧ dlthxSkip np (X i) k = (Y i - 1.0, k + m + 1))) ∧ dlthxSkip np x k = (y, k + m) ∧ F.Approx Y y := by
  intro d
  induction d with
  | zero =>
    intro X x k hd hx
    refine ⟨X, x, 0, Eventually.of_forall fun i => Or.inl ?_, ?_, hx⟩
    · rw [dlthxSkip, if_neg (by omega), Nat.cast_zero, add_zero]
    · rw [dlthxSkip, if_neg (by omega), Nat.cast_zero, add_zero]
  | succ d ih =>
    intro X x k hd hx
    have h1 := hx.sub (Refining.Approx.lit (F := F) 10 true 1)
    rcases lt_trichotomy 0 x with q | q | q
    · have hc := Follows.zero.lt_iff hx q.ne
      obtain ⟨Y, y, m, a1, a2, a3⟩ := ih (k := k + 1) (by omega) h1
      have ek : k + 1 + (m : ℤ) = k + ((m + 1 : ℕ) : ℤ) := by push_cast; ring
      refine ⟨Y, y, m + 1, ?_, ?_, a3⟩
      · filter_upwards [a1, hc] with i b1 b2
        rw [dlthxSkip, if_pos ⟨b2.2 q, by omega⟩, ← ek]
        exact b1
      · rw [dlthxSkip, if_pos ⟨by rw [zero_lit]; exact q, by omega⟩, ← ek]
        exact a2
    · subst q
      have h2 : F.Approx (fun i => (X i - 1.0 : α i)) (-1) := by
        convert h1 using 1; norm_num
      have hn := Follows.zero.lt_iff h2 (by norm_num)
      refine ⟨X, 0, 0, ?_, ?_, hx⟩
      · filter_upwards [hn] with i b
        by_cases t : (0.0 : α i) < X i
        · right
          refine ⟨rfl, by simp; omega, ?_⟩
          rw [dlthxSkip, if_pos ⟨t, by omega⟩, dlthxSkip, if_neg (fun u => by have := b.1 u.1; norm_num at this), Nat.cast_zero, add_zero]
        · left
          rw [dlthxSkip, if_neg (fun u => t u.1), Nat.cast_zero, add_zero]
      · rw [dlthxSkip, if_neg (fun u => by rw [zero_lit] at u; exact lt_irrefl _ u.1), Nat.cast_zero, add_zero]
    · have hc := Follows.zero.lt_iff hx q.ne'
      refine ⟨X, x, 0, ?_, ?_, hx⟩
      · filter_upwards [hc] with i b
        left
        rw [dlthxSkip, if_neg (fun t => not_lt.2 q.le (b.1 t.1)), Nat.cast_zero, add_zero]
      · rw [dlthxSkip, if_neg (fun t => not_lt.2 q.le (by rw [zero_lit] at t; exact t.1)), Nat.cast_zero, add_zero]

theorem refine_dlthxSample {P : ∀ i, Pfl (α i)} {p : Pfl ℝ} (h : PflApx F P p) {X : ∀ i, α i} {x : ℝ} (hx : F.Approx X x) (k : Int) :
    Follows l F.Approx (fun i => dlthxSample (P i) (X i) k) (dlthxSample p x k) := by
  have hl : ∀ᶠ i in l, (P i).len = p.len := by
    filter_upwards [h.len] with i hi
    unfold Pfl.len; rw [hi]
  by_cases c : k + 2 ≤ p.len
  · refine Follows.congr (m := fun i => do
      let z ← (P i).get (k + 2)
      let z' ← (P i).get (k + 1)
      pure (z + (z - z') * X i)) ?_ ?_
    · unfold dlthxSample
      rw [if_pos c]
      refine Follows.bind (h.get _) (fun Z z _ hz => ?_)
      refine Follows.bind (h.get _) (fun Z' z' _ hz' => ?_)
      exact Follows.pure (hz.add ((hz.sub hz').mul hx))
    · filter_upwards [hl] with i hi
      unfold dlthxSample
      rw [hi, if_pos c]
  · refine Follows.congr (m := fun i => do
      let z ← (P i).get (p.len - 1)
      let z' ← (P i).get (p.len - 2)
      pure (z + (z - z') * X i)) ?_ ?_
    · unfold dlthxSample
      rw [if_neg c]
      refine Follows.bind (h.get _) (fun Z z _ hz => ?_)
      refine Follows.bind (h.get _) (fun Z' z' _ hz' => ?_)
      exact Follows.pure (hz.add ((hz.sub hz').mul hx))
    · filter_upwards [hl] with i hi
      unfold dlthxSample
      rw [hi, if_neg c]

/-- The same arithmetics along a finer filter. -/
def Spec.Refining.along (F : Refining l α ε) {k : Filter ι} (h : k ≤ l) : Refining k α ε := ⟨F.arith, F.pos, F.tends.mono_left h⟩

theorem Spec.Refining.Approx.along {X : ∀ i, α i} {x : ℝ} (hx : F.Approx X x) {k : Filter ι} (h : k ≤ l) : (F.along h).Approx X x :=
  ⟨h hx.1, hx.2.mono h⟩

theorem Spec.PflApx.along {P : ∀ i, Pfl (α i)} {p : Pfl ℝ} (a : PflApx F P p) {k : Filter ι} (h : k ≤ l) : PflApx (F.along h) P p :=
  ⟨h a.np, h a.len, a.xi.along h, fun j x e => by
    obtain ⟨b, b1, b2⟩ := a.z j x e
    exact ⟨b, h b1, b2.along h⟩⟩

section
variable {s : Set ι} [DecidablePred (· ∈ s)]

theorem Spec.Refining.Approx.split {X Y : ∀ i, α i} {x : ℝ} (h1 : (F.along (inf_le_left : l ⊓ 𝓟 s ≤ l)).Approx X x)
    (h2 : (F.along (inf_le_left : l ⊓ 𝓟 sᶜ ≤ l)).Approx Y x) : F.Approx (fun i => if i ∈ s then X i else Y i) x := by
  obtain ⟨f1, e1⟩ := h1
  obtain ⟨f2, e2⟩ := h2
  obtain ⟨C, hC⟩ := e1.bound
  obtain ⟨D, hD⟩ := e2.bound
  rw [eventually_inf_principal] at f1 f2 hC hD
  refine ⟨?_, IsBigO.of_bound (max C D) ?_⟩
  · filter_upwards [f1, f2] with i a b
    by_cases c : i ∈ s
    · simp only [c, if_true]; exact a c
    · simp only [c, if_false]; exact b c
  · filter_upwards [hC, hD] with i a b
    by_cases c : i ∈ s
    · simp only [c, if_true]
      exact (a c).trans (mul_le_mul_of_nonneg_right (le_max_left _ _) (norm_nonneg _))
    · simp only [c, if_false]
      exact (b c).trans (mul_le_mul_of_nonneg_right (le_max_right _ _) (norm_nonneg _))

theorem ListApx.split {A B : ∀ i, List (α i)} {xs : List ℝ} (h1 : ListApx (l ⊓ 𝓟 s) (F.along (inf_le_left : l ⊓ 𝓟 s ≤ l)).Approx A xs)
    (h2 : ListApx (l ⊓ 𝓟 sᶜ) (F.along (inf_le_left : l ⊓ 𝓟 sᶜ ≤ l)).Approx B xs) : ListApx l F.Approx (fun i => if i ∈ s then A i else B i) xs := by
  induction xs generalizing A B with
  | nil =>
    unfold ListApx at *
    rw [eventually_inf_principal] at h1 h2
    filter_upwards [h1, h2] with i a b
    by_cases c : i ∈ s
    · simp only [c, if_true]; exact a c
    · simp only [c, if_false]; exact b c
  | cons x xs ih =>
    obtain ⟨a, A', p1, p2, p3⟩ := h1
    obtain ⟨b, B', q1, q2, q3⟩ := h2
    refine ⟨_, _, ?_, p2.split q2, ih p3 q3⟩
    rw [eventually_inf_principal] at p1 q1
    filter_upwards [p1, q1] with i u v
    by_cases c : i ∈ s
    · simp only [c, if_true]; exact u c
    · simp only [c, if_false]; exact v c

/-- To follow along two halves of a filter is to follow. -/
theorem Follows.split {m : ∀ i, Py (List (α i))} {r : Py (List ℝ)}
    (h1 : Follows (l ⊓ 𝓟 s) (ListApx (l ⊓ 𝓟 s) (F.along (inf_le_left : l ⊓ 𝓟 s ≤ l)).Approx) m r)
    (h2 : Follows (l ⊓ 𝓟 sᶜ) (ListApx (l ⊓ 𝓟 sᶜ) (F.along (inf_le_left : l ⊓ 𝓟 sᶜ ≤ l)).Approx) m r) : Follows l (ListApx l F.Approx) m r := by
  intro x hx
  obtain ⟨a, a1, a2⟩ := h1 x hx
  obtain ⟨b, b1, b2⟩ := h2 x hx
  refine ⟨_, ?_, a2.split b2⟩
  rw [eventually_inf_principal] at a1 b1
  filter_upwards [a1, b1] with i u v
  by_cases c : i ∈ s
  · simp only [c, if_true]; exact u c
  · simp only [c, if_false]; exact v c

end

/-- A sample point is the end of one interval and the beginning of the next. -/
theorem dlthxSample_seam {p : Pfl ℝ} (hl : p.np + 3 ≤ p.len) {k : Int} (hk : 0 ≤ k) (h : k < p.np) : dlthxSample p 0 k = dlthxSample p (-1) (k + 1) := by
  have get : ∀ j : ℤ, 0 ≤ j → j < p.len → ∃ v, p.get j = .ok v := by
    intro j j0 j1
    unfold Pfl.get
    have : (p.flat.length : ℤ) = p.len := by simp [Pfl.flat, Pfl.len]; ring
    rw [pyGet_nonneg j0 (by omega)]
    exact ⟨_, rfl⟩
  obtain ⟨u, hu⟩ := get (k + 1) (by omega) (by omega)
  obtain ⟨v, hv⟩ := get (k + 2) (by omega) (by omega)
  obtain ⟨w, hw⟩ := get (k + 1 + 2) (by omega) (by omega)
  unfold dlthxSample
  rw [if_pos (by omega), if_pos (by omega), hw, show k + 1 + 1 = k + 2 by ring, hv, hu]
  simp only [ok_bind, pure_ok, ok_inj]
  ring

theorem dlthxResample_seam {p : Pfl ℝ} {s : ℝ} (hs : 0 < s) (n : ℕ) {k : Int} (h : k < p.np) :
    dlthxResample p s n (0 + s) k = dlthxResample p s n (-1 + s) (k + 1) := by
  cases n with
  | zero => rfl
  | succ n =>
    have : dlthxSkip p.np (0 + s) k = dlthxSkip p.np (-1 + s) (k + 1) := by
      rw [dlthxSkip, if_pos ⟨by rw [zero_lit]; linarith, h⟩]
      congr 1
      norm_num; ring
    rw [dlthxResample, this, dlthxResample]

theorem refine_dlthxResample {p : Pfl ℝ} (hp : p.np + 3 ≤ p.len) {s : ℝ} (s0 : 0 < s) : ∀ (n : ℕ) {l : Filter ι} {F : Refining l α ε} {P : ∀ i, Pfl (α i)} {S : ∀ i, α i}
    {X : ∀ i, α i} {x : ℝ} {k : Int}, PflApx F P p → F.Approx S s → F.Approx X x → 0 ≤ k →
    Follows l (ListApx l F.Approx) (fun i => dlthxResample (P i) (S i) n (X i) k) (dlthxResample p s n x k) := by
  classical
  intro n
  induction n with
  | zero => intro l F P S X x k _ _ _ _; exact Follows.pure ListApx.nil
  | succ n ih =>
    intro l F P S X x k h hs hx hk
    obtain ⟨Y, y, m, a1, a2, a3⟩ := refine_dlthxSkip (F := F) p.np _ (k := k) rfl hx
    have er : dlthxResample p s (n + 1) x k = (do
        let v ← dlthxSample p y (k + m)
        let rest ← dlthxResample p s n (y + s) (k + m)
        pure (v :: rest)) := by
      rw [dlthxResample, a2]
    have body : ∀ {l' : Filter ι} {F' : Refining l' α ε} {Z : ∀ i, α i} {z : ℝ} {j : ℤ}, PflApx F' P p → F'.Approx S s → F'.Approx Z z → 0 ≤ j →
        Follows l' (ListApx l' F'.Approx) (fun i => do
          let v ← dlthxSample (P i) (Z i) j
          let rest ← dlthxResample (P i) (S i) n (Z i + S i) j
          pure (v :: rest)) (do
          let v ← dlthxSample p z j
          let rest ← dlthxResample p s n (z + s) j
          pure (v :: rest)) := by
      intro l' F' Z z j g1 g2 g3 g4
      refine Follows.bind (refine_dlthxSample g1 g3 _) (fun V v _ hv => ?_)
      exact Follows.bind (ih g1 g2 (g3.add g2) g4) (fun L r _ hL => Follows.pure (ListApx.cons hv hL))
    rw [er]
    refine Follows.split (s := {i | dlthxSkip p.np (X i) k = (Y i, k + m)}) ?_ ?_
    · refine Follows.congr (body (h.along inf_le_left) (hs.along inf_le_left) (a3.along inf_le_left) (by omega)) ?_
      rw [eventually_inf_principal]
      filter_upwards [h.np] with i b1 b2
      conv_rhs => rw [dlthxResample]
      rw [b1, show dlthxSkip p.np (X i) k = (Y i, k + m) from b2]
    · by_cases c : y = 0 ∧ k + m < p.np
      · obtain ⟨rfl, c⟩ := c
        rw [dlthxSample_seam hp (by omega) c, dlthxResample_seam s0 n c]
        have h1 := a3.sub (Refining.Approx.lit (F := F) 10 true 1)
        have h2 : F.Approx (fun i => (Y i - 1.0 : α i)) (-1) := by
          convert h1 using 1; norm_num
        refine Follows.congr (body (h.along inf_le_left) (hs.along inf_le_left) (h2.along inf_le_left) (by omega)) ?_
        rw [eventually_inf_principal]
        filter_upwards [h.np, a1] with i b1 b2 b3
        conv_rhs => rw [dlthxResample]
        rcases b2 with b2 | ⟨-, -, b2⟩
        · exact absurd b2 b3
        · rw [b1, b2]
      · refine Follows.congr (body (h.along inf_le_left) (hs.along inf_le_left) (a3.along inf_le_left) (show 0 ≤ k + (m : ℤ) by omega)) ?_
        rw [eventually_inf_principal]
        filter_upwards [a1] with i b2 b3
        rcases b2 with b2 | ⟨b4, b5, b2⟩
        · exact absurd b2 b3
        · exact absurd ⟨b4, b5⟩ c

theorem refine_dlthxDetrend {S : ∀ i, α i} {s : ℝ} (hs : F.Approx S s) : ∀ {A : ∀ i, List (α i)} {xs : List ℝ} {X : ∀ i, α i} {x : ℝ},
    ListApx l F.Approx A xs → F.Approx X x → ListApx l F.Approx (fun i => dlthxDetrend (S i) (A i) (X i)) (dlthxDetrend s xs x) := by
  intro A xs
  induction xs generalizing A with
  | nil =>
    intro X x h _
    unfold ListApx at h
    exact ListApx.nil.congr (by filter_upwards [h] with i hi; rw [hi]; rfl)
  | cons v vs ih =>
    intro X x h hx
    obtain ⟨b, B, h1, h2, h3⟩ := h
    exact (ListApx.cons (h2.sub hx) (ih h3 (hx.add hs))).congr (by filter_upwards [h1] with i hi; rw [hi]; rfl)

theorem dlthxDetrend_length {β : Type} [PyNum β] (s : β) (xs : List β) (x : β) : (dlthxDetrend s xs x).length = xs.length := by
  induction xs generalizing x with
  | nil => rfl
  | cons v vs ih => unfold dlthxDetrend; rw [List.length_cons, List.length_cons, ih]

theorem dlthxResample_length {p : Pfl ℝ} {s : ℝ} : ∀ (n : ℕ) {x : ℝ} {k : Int} {r : List ℝ}, dlthxResample p s n x k = .ok r → r.length = n := by
  intro n
  induction n with
  | zero => intro x k r h; obtain rfl := ok_inj.1 (show Except.ok [] = Except.ok r from h); rfl
  | succ n ih =>
    intro x k r h
    unfold dlthxResample at h
    dsimp only at h
    obtain ⟨v, -, h⟩ := bind_eq_ok.1 h
    obtain ⟨t, ht, h⟩ := bind_eq_ok.1 h
    obtain rfl := ok_inj.1 (show Except.ok (v :: t) = Except.ok r from h)
    rw [List.length_cons, ih ht]

/-- Rounding down is off by one at most. -/
theorem refine_floor_near {A : ∀ i, α i} {x : ℝ} (h : F.Approx A x) (hx : 0 < x) : ∀ᶠ i in l, pyInt (A i) = ⌊x⌋ ∨ (pyInt (A i) = ⌊x⌋ - 1 ∧ (⌊x⌋ : ℝ) = x) := by
  by_cases c : OffGrid x
  · filter_upwards [refine_pyInt h c] with i hi
    left; rw [hi, pyInt_nonneg hx.le]
  · unfold OffGrid at c
    push Not at c
    obtain ⟨k, rfl⟩ := c
    rw [Int.floor_intCast]
    filter_upwards [h.fin, zero_val F, h.pos hx, h.tendsto.eventually (gt_mem_nhds (show (k : ℝ) < k + 1 by linarith)),
      h.tendsto.eventually (lt_mem_nhds (show (k : ℝ) - 1 < k by linarith))] with i f z p h1 h2
    have e : pyInt (A i) = ⌊(F.arith i).val (A i)⌋ := by
      unfold pyInt
      rw [if_neg, (F.arith i).floor _ f]
      rw [(F.arith i).lt _ _ f z.1, z.2]
      exact not_lt.2 p.le
    have g1 : ⌊(F.arith i).val (A i)⌋ < k + 1 := by rw [Int.floor_lt]; push_cast; exact h1
    have g2 : k - 1 ≤ ⌊(F.arith i).val (A i)⌋ := by rw [Int.le_floor]; push_cast; exact h2.le
    rw [e]
    rcases lt_or_ge ⌊(F.arith i).val (A i)⌋ k with g | g
    · right; exact ⟨by omega, rfl⟩
    · left; omega

theorem refine_dlthxKa {X Y : ∀ i, α i} {x y : ℝ} (hx : F.Approx X x) (hy : F.Approx Y y) (h2 : 2 < y - x)
    (c : ∀ k : ℕ, 5 ≤ k → k ≤ 25 → y - x ≠ 10 * k - 8) : ∀ᶠ i in l, dlthxKa (X i) (Y i) = dlthxKa x y := by
  have h : F.Approx (fun i => (0.1 * (Y i - X i + 8.0) : α i)) (0.1 * (y - x + 8.0)) :=
    (Refining.Approx.lit (F := F) 1 true 1).mul ((hy.sub hx).add (Refining.Approx.lit (F := F) 80 true 1))
  obtain ⟨t, et⟩ : ∃ t, t = 0.1 * (y - x + 8.0) := ⟨_, rfl⟩
  have et' : y - x = 10 * t - 8 := by rw [et]; norm_num; ring
  have t0 : 0 < t := by linarith
  rw [← et] at h
  filter_upwards [refine_floor_near h t0] with i hi
  unfold dlthxKa
  rw [← et, pyInt_nonneg t0.le]
  rcases hi with hi | ⟨hi, he⟩
  · rw [hi]
  · rw [hi]
    have : ¬ (5 ≤ ⌊t⌋ ∧ ⌊t⌋ ≤ 25) := fun q => by
      obtain ⟨k, hk⟩ := Int.eq_ofNat_of_zero_le (show 0 ≤ ⌊t⌋ by omega)
      refine c k (by omega) (by omega) ?_
      rw [et', ← he, hk]
      push_cast; ring
    omega

theorem refine_dlthx {P : ∀ i, Pfl (α i)} {p : Pfl ℝ} (h : PflApx F P p) {X Y : ∀ i, α i} {x y : ℝ} (hx : F.Approx X x) (hy : F.Approx Y y)
    (hp : p.np + 3 ≤ p.len) (x0 : 0 < x / p.xi) (c0 : OffGrid (x / p.xi)) (c : SpreadClear (x / p.xi) (y / p.xi)) : Follows l F.Approx (fun i => dlthx (P i) (X i) (Y i)) (dlthx p x y) := by
  unfold dlthx
  dsimp only
  refine Follows.bind (Follows.div hx h.xi) (fun A a ha hA => ?_)
  refine Follows.bind (Follows.div hy h.xi) (fun B b hb hB => ?_)
  obtain ⟨-, ea⟩ := pyDiv_eq_ok.1 ha
  obtain ⟨-, eb⟩ := pyDiv_eq_ok.1 hb
  rw [← ea] at x0 c0
  rw [← ea, ← eb] at c
  have e2 : (OfScientific.ofScientific 20 true 1 : ℝ) = 2 := by norm_num
  refine Follows.ite ((Refining.Approx.lit (F := F) 20 true 1).le_iff (hB.sub hA) (by rw [e2]; exact c.two.symm)) (fun q => ?_) (fun _ => ?_)
  swap
  · exact Follows.pure (Refining.Approx.lit _ _ _)
  have q : 2 < b - a := lt_of_le_of_ne (by rw [← e2]; exact q) c.two.symm
  have eka := dlthxKa_eq q.le
  have en : 10 * dlthxKa a b - 5 = (resampled a b : ℤ) := by
    rw [eka]; unfold resampled; have := trimmed_bounds a b; omega
  have hn : (10 * dlthxKa a b - 5).toNat = resampled a b := by rw [en]; omega
  have hk1 := refine_pyInt (hA.add (Refining.Approx.lit (F := F) 10 true 1)) (by
    have := c0.add 1
    rwa [show (OfScientific.ofScientific 10 true 1 : ℝ) = ((1 : ℤ) : ℝ) by push_cast; norm_num])
  obtain ⟨ka, eq⟩ : ∃ ka, ka = dlthxKa a b := ⟨_, rfl⟩
  obtain ⟨k, ek⟩ : ∃ k, k = pyInt (a + 1.0) := ⟨_, rfl⟩
  refine Follows.congr (m := fun i => do
    let step ← (B i - A i) /! PyNum.ofInt (10 * ka - 5 - 1)
    let s ← dlthxResample (P i) step (10 * ka - 5).toNat (A i - PyNum.ofInt k) k
    let r ← zlsq1 { np := 10 * ka - 5 - 1, xi := 1.0, z := s } 0.0 (PyNum.ofInt (10 * ka - 5 - 1))
    let step ← (r.2 - r.1) /! PyNum.ofInt (10 * ka - 5 - 1)
    let hi ← qtile (dlthxDetrend step s r.1) (ka - 1)
    let lo ← qtile (dlthxDetrend step s r.1) (10 * ka - 5 - ka + 1 - 1)
    (hi - lo) /! (1.0 - 0.8 * PyNum.exp (-(Y i - X i) / 50e3))) ?_ ?_
  swap
  · filter_upwards [refine_dlthxKa hA hB q (c.trim q), hk1] with i k1 k2
    rw [k1, eq, ek]
    rw [show pyInt (A i + 1.0) = pyInt (a + 1.0) from k2]
  rw [← eq, ← ek]
  rw [← eq] at en hn eka
  have tb := trimmed_bounds a b
  have hsn := Refining.Approx.whole F (10 * ka - 5 - 1)
  refine Follows.bind (Follows.div (hB.sub hA) hsn) (fun S s hs hS => ?_)
  obtain ⟨-, es⟩ := pyDiv_eq_ok.1 hs
  have s0 : 0 < s := by
    have : (PyNum.ofInt (10 * ka - 5 - 1) : ℝ) = (resampled a b : ℝ) - 1 := by rw [en, rofInt]; push_cast; ring
    have r1 : (1 : ℝ) < resampled a b := by exact_mod_cast (show 1 < resampled a b by unfold resampled; omega)
    rw [es, this]
    exact div_pos (by linarith) (by linarith)
  have k0 : 0 ≤ k := by
    rw [ek, pyInt_nonneg (by norm_num; linarith)]
    exact Int.floor_nonneg.2 (by norm_num; linarith)
  refine Follows.bind (refine_dlthxResample hp s0 _ h hS (hA.sub (Refining.Approx.whole F k)) k0) (fun Z z hz hZ => ?_)
  have lz := dlthxResample_length _ hz
  have hP : PflApx F (fun i => { np := 10 * ka - 5 - 1, xi := 1.0, z := Z i }) { np := 10 * ka - 5 - 1, xi := 1.0, z := z } :=
    ⟨Eventually.of_forall fun _ => rfl, hZ.length, Refining.Approx.lit _ _ _, fun j x e => hZ.get e⟩
  have d1 : (0.0 : ℝ) / (1.0 : ℝ) ≤ 0 := by norm_num
  have d2 : ((10 * ka - 5 - 1 : ℤ) : ℝ) - (PyNum.ofInt (10 * ka - 5 - 1) : ℝ) / (1.0 : ℝ) ≤ 0 := by
    rw [rofInt, show (1.0 : ℝ) = 1 by norm_num, div_one, sub_self]
  refine Follows.bind (refine_zlsq1 hP (Refining.Approx.lit (F := F) 0 true 1) hsn (Or.inl d1) (Or.inl d2)) (fun R r _ hR => ?_)
  refine Follows.bind (Follows.div (hR.2.sub hR.1) hsn) (fun T t _ hT => ?_)
  have hD := refine_dlthxDetrend hT hZ hR.1
  have ld : (dlthxDetrend t z r.1).length = resampled a b := by rw [dlthxDetrend_length, lz, hn]
  have er : resampled a b = 10 * trimmed a b - 5 := rfl
  have i1 : ka - 1 = ((trimmed a b - 1 : ℕ) : ℤ) := by omega
  have i2 : 10 * ka - 5 - ka + 1 - 1 = ((resampled a b - trimmed a b : ℕ) : ℤ) := by omega
  rw [i1, i2]
  refine Follows.bind (refine_qtile hD (by omega)) (fun U u _ hU => ?_)
  refine Follows.bind (refine_qtile hD (by omega)) (fun V v _ hV => ?_)
  refine Follows.div (hU.sub hV) ?_
  exact (Refining.Approx.lit (F := F) 10 true 1).sub ((Refining.Approx.lit (F := F) 8 true 1).mul
    (((hy.sub hx).neg.div (Refining.Approx.lit (F := F) 50 false 3) (by norm_num)).exp))

end Itm
