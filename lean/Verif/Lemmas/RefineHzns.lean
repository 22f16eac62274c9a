import Verif.Lemmas.RefineFit
import Verif.Lemmas.Hzns

/-! `hzns` in arithmetics of growing precision. Samples seen under the same angle may be taken for the horizon or not as rounding has it, so the
states of the loop are followed together with the samples that may have been taken. -/

namespace Itm
open Itm.Spec Filter Asymptotics Topology

variable {ι : Type} {l : Filter ι} {α : ι → Type} [∀ i, PyNum (α i)] {ε : ι → ℝ} {F : Refining l α ε}

/-- After `m` samples the angles `T` approximate the greatest angle `t`, and the distances `d` belong to points seen under that angle. -/
structure FarApx (F : Refining l α ε) (view : ℕ → ℝ) (far : ℝ) (pos : ℕ → ℝ) (D : ∀ i, α i) (m : ℕ) (t : ℝ) (S : ℕ → ∀ i, α i) (T d : ∀ i, α i) : Prop where
  ang : F.Approx T t
  far_le : far ≤ t
  view_le : ∀ j, 1 ≤ j → j ≤ m → view j ≤ t
  att : t = far ∨ ∃ j, 1 ≤ j ∧ j ≤ m ∧ view j = t
  places : ∀ j, 1 ≤ j → j ≤ m → F.Approx (S j) (pos j)
  src : ∀ᶠ i in l, (d i = D i ∧ t = far) ∨ ∃ j, 1 ≤ j ∧ j ≤ m ∧ view j = t ∧ d i = S j i

theorem FarApx.step {view : ℕ → ℝ} {far : ℝ} {pos : ℕ → ℝ} {D : ∀ i, α i} {m : ℕ} {t : ℝ} {S : ℕ → ∀ i, α i} {T d A B : ∀ i, α i}
    (h : FarApx F view far pos D m t S T d) (hA : F.Approx A (view (m + 1))) (hB : F.Approx B (pos (m + 1))) {c : ι → Prop} [∀ i, Decidable (c i)]
    (c1 : t < view (m + 1) → ∀ᶠ i in l, c i) (c2 : view (m + 1) < t → ∀ᶠ i in l, ¬ c i) :
    ∃ S', FarApx F view far pos D (m + 1) (max t (view (m + 1))) S' (fun i => if c i then A i else T i) (fun i => if c i then B i else d i) := by
  have old : ∀ j, j ≤ m → Function.update S (m + 1) B j = S j := fun j hj => Function.update_of_ne (by omega) _ _
  have new : Function.update S (m + 1) B (m + 1) = B := Function.update_self _ _ _
  have pl : ∀ j, 1 ≤ j → j ≤ m + 1 → F.Approx (Function.update S (m + 1) B j) (pos j) := by
    intro j h1 h2
    rcases Nat.lt_or_ge m j with hj | hj
    · obtain rfl : j = m + 1 := by omega
      rw [new]; exact hB
    · rw [old j hj]; exact h.places j h1 hj
  have vl : ∀ j, 1 ≤ j → j ≤ m + 1 → view j ≤ max t (view (m + 1)) := by
    intro j h1 h2
    rcases Nat.lt_or_ge m j with hj | hj
    · obtain rfl : j = m + 1 := by omega
      exact le_max_right _ _
    · exact (h.view_le j h1 hj).trans (le_max_left _ _)
  refine ⟨Function.update S (m + 1) B, ?_, h.far_le.trans (le_max_left _ _), vl, ?_, pl, ?_⟩
  · rcases lt_trichotomy t (view (m + 1)) with q | q | q
    · rw [max_eq_right q.le]
      exact hA.congr (by filter_upwards [c1 q] with i hi; rw [if_pos hi])
    · rw [← q] at hA ⊢
      rw [max_self]
      exact hA.choose h.ang
    · rw [max_eq_left q.le]
      exact h.ang.congr (by filter_upwards [c2 q] with i hi; rw [if_neg hi])
  · rcases le_or_gt (view (m + 1)) t with q | q
    · rw [max_eq_left q]
      rcases h.att with e | ⟨j, h1, h2, h3⟩
      · exact Or.inl e
      · exact Or.inr ⟨j, h1, by omega, h3⟩
    · rw [max_eq_right q.le]
      exact Or.inr ⟨m + 1, by omega, le_rfl, rfl⟩
  · have keep : view (m + 1) ≤ t → ∀ᶠ i in l, ¬ c i → (((if c i then B i else d i) = D i ∧ max t (view (m + 1)) = far) ∨
        ∃ j, 1 ≤ j ∧ j ≤ m + 1 ∧ view j = max t (view (m + 1)) ∧ (if c i then B i else d i) = Function.update S (m + 1) B j i) := by
      intro q
      filter_upwards [h.src] with i hi hc
      rw [if_neg hc, max_eq_left q]
      rcases hi with hi | ⟨j, h1, h2, h3, h4⟩
      · exact Or.inl hi
      · exact Or.inr ⟨j, h1, by omega, h3, by rw [old j h2]; exact h4⟩
    rcases lt_trichotomy t (view (m + 1)) with q | q | q
    · filter_upwards [c1 q] with i hi
      rw [if_pos hi, max_eq_right q.le]
      exact Or.inr ⟨m + 1, by omega, le_rfl, rfl, by rw [new]⟩
    · filter_upwards [keep q.ge] with i hi
      by_cases hc : c i
      · rw [if_pos hc]
        exact Or.inr ⟨m + 1, by omega, le_rfl, by rw [← q, max_self], by rw [new]⟩
      · exact hi hc
    · filter_upwards [keep q.le, c2 q] with i hi hc
      exact hi hc

/-- Values finally found among finitely many approximations of `x` approximate `x`. -/
theorem approx_among {x : ℝ} : ∀ (L : List (∀ i, α i)), (∀ A ∈ L, F.Approx A x) → ∀ {d : ∀ i, α i}, (∀ᶠ i in l, ∃ A ∈ L, d i = A i) → F.Approx d x := by
  intro L hL d hd
  have key : ∃ C, ∀ᶠ i in l, ∀ A ∈ L, (F.arith i).fin (A i) ∧ |(F.arith i).val (A i) - x| ≤ C * ε i := by
    clear hd
    induction L with
    | nil => exact ⟨0, Eventually.of_forall fun i A hA => by simp at hA⟩
    | cons B L ih =>
      obtain ⟨C, hC⟩ := ih fun A hA => hL A (List.mem_cons_of_mem _ hA)
      have hB := hL B List.mem_cons_self
      obtain ⟨E, hE⟩ := hB.2.bound
      refine ⟨max C E, ?_⟩
      filter_upwards [hC, hE, hB.1] with i k1 k2 k3 A hA
      have ei := F.pos i
      rcases List.mem_cons.1 hA with rfl | hA
      · refine ⟨k3, ?_⟩
        rw [Real.norm_eq_abs, Real.norm_eq_abs, abs_of_pos ei] at k2
        exact k2.trans (mul_le_mul_of_nonneg_right (le_max_right _ _) ei.le)
      · exact ⟨(k1 A hA).1, (k1 A hA).2.trans (mul_le_mul_of_nonneg_right (le_max_left _ _) ei.le)⟩
  obtain ⟨C, hC⟩ := key
  refine ⟨?_, IsBigO.of_bound C ?_⟩
  · filter_upwards [hC, hd] with i k1 ⟨A, hA, e⟩
    rw [e]; exact (k1 A hA).1
  · filter_upwards [hC, hd] with i k1 ⟨A, hA, e⟩
    rw [e, Real.norm_eq_abs, Real.norm_eq_abs, abs_of_pos (F.pos i)]
    exact (k1 A hA).2

/-- A horizon that stands out is the one found. -/
theorem FarApx.single {view : ℕ → ℝ} {far full : ℝ} {pos : ℕ → ℝ} {D : ∀ i, α i} {m : ℕ} {t θ d₀ : ℝ} {S : ℕ → ∀ i, α i} {T d : ∀ i, α i}
    (h : FarApx F view far pos D m t S T d) (hD : F.Approx D full) (k : IsHorizon view far pos full m θ d₀) (s : StandsOut view far pos full m 0 θ d₀) :
    F.Approx T θ ∧ F.Approx d d₀ := by
  have et : t = θ := by
    apply le_antisymm
    · rcases h.att with e | ⟨j, h1, h2, h3⟩
      · rw [e]; exact k.far_le
      · rw [← h3]; exact k.view_le j h1 h2
    · rcases k.attained with e | ⟨j, h1, h2, -, h3, -⟩
      · rw [e.1]; exact h.far_le
      · rw [h3]; exact h.view_le j h1 h2
  refine ⟨et ▸ h.ang, ?_⟩
  obtain ⟨s1, s2⟩ := s
  simp only [add_zero] at s1 s2
  classical
  refine approx_among ((if t = far then [D] else []) ++ ((List.range (m + 1)).filter fun j => 1 ≤ j ∧ view j = t).map S) ?_ ?_
  · intro A hA
    rcases List.mem_append.1 hA with hA | hA
    · split_ifs at hA with e
      · obtain rfl := List.mem_singleton.1 hA
        have : d₀ = full := by
          by_contra hc
          have := s1 hc
          rw [← et, e] at this
          exact lt_irrefl _ this
        rw [this]; exact hD
      · simp at hA
    · obtain ⟨j, hj, rfl⟩ := List.mem_map.1 hA
      rw [List.mem_filter, List.mem_range, decide_eq_true_eq] at hj
      have : d₀ = pos j := by
        by_contra hc
        have := s2 j hj.2.1 (by omega) hc
        rw [← et, hj.2.2] at this
        exact lt_irrefl _ this
      rw [this]; exact h.places j hj.2.1 (by omega)
  · filter_upwards [h.src] with i hi
    rcases hi with ⟨e, ht⟩ | ⟨j, h1, h2, h3, h4⟩
    · exact ⟨D, by rw [if_pos ht]; simp, e⟩
    · refine ⟨S j, List.mem_append_right _ (List.mem_map.2 ⟨j, ?_, rfl⟩), h4⟩
      rw [List.mem_filter, List.mem_range, decide_eq_true_eq]
      exact ⟨by omega, h1, h3⟩

/-- One turn as a plain record. -/
def hzNext {β : Type} [PyNum β] (p : Pfl β) (qc za zb z : β) (s : HzSt β) : HzSt β :=
  {
      sa := s.sa + p.xi
      sb := s.sb - p.xi
      the := ⟨if 0.0 < z - (qc * (s.sa + p.xi) + s.the.x0) * (s.sa + p.xi) - za then
            s.the.x0 + (z - (qc * (s.sa + p.xi) + s.the.x0) * (s.sa + p.xi) - za) / (s.sa + p.xi) else s.the.x0,
          if (0.0 < z - (qc * (s.sa + p.xi) + s.the.x0) * (s.sa + p.xi) - za ∨ s.wq = false) ∧
            0.0 < z - (qc * (s.sb - p.xi) + s.the.x1) * (s.sb - p.xi) - zb then
            s.the.x1 + (z - (qc * (s.sb - p.xi) + s.the.x1) * (s.sb - p.xi) - zb) / (s.sb - p.xi) else s.the.x1⟩
      dl := ⟨if 0.0 < z - (qc * (s.sa + p.xi) + s.the.x0) * (s.sa + p.xi) - za then s.sa + p.xi else s.dl.x0,
          if (0.0 < z - (qc * (s.sa + p.xi) + s.the.x0) * (s.sa + p.xi) - za ∨ s.wq = false) ∧
            0.0 < z - (qc * (s.sb - p.xi) + s.the.x1) * (s.sb - p.xi) - zb then s.sb - p.xi else s.dl.x1⟩
      wq := if 0.0 < z - (qc * (s.sa + p.xi) + s.the.x0) * (s.sa + p.xi) - za then false else s.wq }

theorem hznsStep_eq {β : Type} [PyNum β] {p : Pfl β} {qc za zb z : β} {i : Int} {s : HzSt β} (hz : p.get (i + 1) = .ok z)
    (h1 : ¬ pyEq (s.sa + p.xi) 0.0) (h2 : ¬ pyEq (s.sb - p.xi) 0.0) : hznsStep p qc za zb i s = .ok (hzNext p qc za zb z s) := by
  obtain ⟨sa, sb, ⟨t0, t1⟩, ⟨d0, d1⟩, wq⟩ := s
  unfold hznsStep hzNext
  dsimp only at h1 h2 ⊢
  rw [hz, ok_bind]
  unfold pyDiv
  rw [if_neg h1]
  by_cases ca : 0.0 < z - (qc * (sa + p.xi) + t0) * (sa + p.xi) - za
  · simp only [if_pos ca, ok_bind, pure_ok, ca, true_or, true_and, if_true, if_neg h2]
    by_cases cb : 0.0 < z - (qc * (sb - p.xi) + t1) * (sb - p.xi) - zb
    · simp only [if_pos cb, ok_bind, pure_ok]
    · simp only [if_neg cb, ok_bind, pure_ok]
  · simp only [if_neg ca, ok_bind, pure_ok, ca, false_or, if_neg h2]
    cases wq with
    | false =>
      simp only [if_true, true_and]
      by_cases cb : 0.0 < z - (qc * (sb - p.xi) + t1) * (sb - p.xi) - zb
      · simp only [if_pos cb, ok_bind, pure_ok, if_false]
      · simp only [if_neg cb, ok_bind, pure_ok, if_false]
    | true => simp

/-- The states after `m` turns. -/
structure HzApx (F : Refining l α ε) (p : Pfl ℝ) (n : ℕ) (κ za zb : ℝ) (D : ∀ i, α i) (m : ℕ) (s : ∀ i, HzSt (α i)) : Prop where
  sa : F.Approx (fun i => (s i).sa) (m * p.xi)
  sb : F.Approx (fun i => (s i).sb) (((n : ℝ) - m) * p.xi)
  a : ∃ t S, FarApx F (hzA p κ za) (elevation κ za (n * p.xi) zb) (fun j => j * p.xi) D m t S (fun i => (s i).the.x0) (fun i => (s i).dl.x0) ∧
    (elevation κ za (n * p.xi) zb < t → ∀ᶠ i in l, (s i).wq = false)
  b : ∃ t S, FarApx F (hzB p n κ zb) (elevation κ zb (n * p.xi) za) (fun j => ((n : ℝ) - j) * p.xi) D m t S (fun i => (s i).the.x1) (fun i => (s i).dl.x1)

theorem refine_hznsStep {P : ∀ i, Pfl (α i)} {p : Pfl ℝ} (h : PflApx F P p) {n m : ℕ} {κ za zb : ℝ} {Q A B D : ∀ i, α i} (hQ : F.Approx Q (0.5 * κ))
    (hA : F.Approx A za) (hB : F.Approx B zb) (hx : 0 < p.xi) (hl : n < p.z.length) (hm : m + 1 < n) {s : ∀ i, HzSt (α i)}
    (k : HzApx F p n κ za zb D m s) :
    ∃ s', (∀ᶠ i in l, hznsStep (P i) (Q i) (A i) (B i) ((m : ℤ) + 2) (s i) = .ok (s' i)) ∧ HzApx F p n κ za zb D (m + 1) s' := by
  obtain ⟨isa, isb, ⟨t, S, ia, iw⟩, ⟨u, U, ib⟩⟩ := k
  have hmn : ((m + 1 : ℕ) : ℝ) < n := by exact_mod_cast hm
  have psa : 0 < ((m + 1 : ℕ) : ℝ) * p.xi := by positivity
  have psb : 0 < ((n : ℝ) - ((m + 1 : ℕ) : ℝ)) * p.xi := mul_pos (by linarith) hx
  have isa' := isa.add h.xi
  have isb' := isb.sub h.xi
  rw [show (m : ℝ) * p.xi + p.xi = ((m + 1 : ℕ) : ℝ) * p.xi by push_cast; ring] at isa'
  rw [show ((n : ℝ) - m) * p.xi - p.xi = ((n : ℝ) - ((m + 1 : ℕ) : ℝ)) * p.xi by push_cast; ring] at isb'
  obtain ⟨Z, hZ, aZ⟩ := h.get ((m : ℤ) + 2 + 1) (p.h (m + 1)) (by
    rw [show (m : ℤ) + 2 + 1 = ((m + 1 : ℕ) : ℤ) + 2 by push_cast; ring]; exact Pfl.get_ok (by omega))
  have qa := (aZ.sub (((hQ.mul isa').add ia.ang).mul isa')).sub hA
  have qb := (aZ.sub (((hQ.mul isb').add ib.ang).mul isb')).sub hB
  have va := ia.ang.add (qa.div isa' psa.ne')
  have vb := ib.ang.add (qb.div isb' psb.ne')
  rw [above_val psa] at va
  rw [above_val psb] at vb
  have ca1 : t < hzA p κ za (m + 1) → ∀ᶠ i in l, 0.0 < Z i - (Q i * ((s i).sa + (P i).xi) + (s i).the.x0) * ((s i).sa + (P i).xi) - A i := fun q => by
    have := (above_iff (κ := κ) (h := za) (z := p.h (m + 1)) (θ := t) psa).2 q
    filter_upwards [Follows.zero.lt_iff qa this.ne] with i hi
    exact hi.2 this
  have ca2 : hzA p κ za (m + 1) < t → ∀ᶠ i in l, ¬ 0.0 < Z i - (Q i * ((s i).sa + (P i).xi) + (s i).the.x0) * ((s i).sa + (P i).xi) - A i := fun q => by
    have h1 := mt (above_iff (κ := κ) (h := za) (z := p.h (m + 1)) (θ := t) psa).1 q.not_gt
    have h2 : (0 : ℝ) ≠ p.h (m + 1) - (0.5 * κ * (((m + 1 : ℕ) : ℝ) * p.xi) + t) * (((m + 1 : ℕ) : ℝ) * p.xi) - za := fun e => by
      have := above_val (κ := κ) (h := za) (z := p.h (m + 1)) (θ := t) psa
      rw [← e, zero_div, add_zero] at this
      exact q.ne this.symm
    filter_upwards [Follows.zero.lt_iff qa h2] with i hi
    exact fun w => h1 (hi.1 w)
  obtain ⟨S', ia'⟩ := ia.step va isa' ca1 ca2
  have far_iff := exceeds_iff (κ := κ) (za := za) (zb := zb) (z := p.h (m + 1)) psa psb
  rw [show ((m + 1 : ℕ) : ℝ) * p.xi + ((n : ℝ) - ((m + 1 : ℕ) : ℝ)) * p.xi = n * p.xi by ring] at far_iff
  have latch : elevation κ za (n * p.xi) zb < max t (hzA p κ za (m + 1)) →
      ∀ᶠ i in l, 0.0 < Z i - (Q i * ((s i).sa + (P i).xi) + (s i).the.x0) * ((s i).sa + (P i).xi) - A i ∨ (s i).wq = false := fun q => by
    rcases le_or_gt (hzA p κ za (m + 1)) t with w | w
    · rw [max_eq_left w] at q
      filter_upwards [iw q] with i hi
      exact Or.inr hi
    · filter_upwards [ca1 w] with i hi
      exact Or.inl hi
  have cb1 : u < hzB p n κ zb (m + 1) → ∀ᶠ i in l, (0.0 < Z i - (Q i * ((s i).sa + (P i).xi) + (s i).the.x0) * ((s i).sa + (P i).xi) - A i ∨ (s i).wq = false) ∧
      0.0 < Z i - (Q i * ((s i).sb - (P i).xi) + (s i).the.x1) * ((s i).sb - (P i).xi) - B i := fun q => by
    have := (above_iff (κ := κ) (h := zb) (z := p.h (m + 1)) (θ := u) psb).2 q
    have g := far_iff.2 (ib.far_le.trans_lt q)
    filter_upwards [Follows.zero.lt_iff qb this.ne, latch (g.trans_le (le_max_right _ _))] with i hi hw
    exact ⟨hw, hi.2 this⟩
  have cb2 : hzB p n κ zb (m + 1) < u → ∀ᶠ i in l, ¬ ((0.0 < Z i - (Q i * ((s i).sa + (P i).xi) + (s i).the.x0) * ((s i).sa + (P i).xi) - A i ∨ (s i).wq = false) ∧
      0.0 < Z i - (Q i * ((s i).sb - (P i).xi) + (s i).the.x1) * ((s i).sb - (P i).xi) - B i) := fun q => by
    have h1 := mt (above_iff (κ := κ) (h := zb) (z := p.h (m + 1)) (θ := u) psb).1 q.not_gt
    have h2 : (0 : ℝ) ≠ p.h (m + 1) - (0.5 * κ * (((n : ℝ) - ((m + 1 : ℕ) : ℝ)) * p.xi) + u) * (((n : ℝ) - ((m + 1 : ℕ) : ℝ)) * p.xi) - zb := fun e => by
      have := above_val (κ := κ) (h := zb) (z := p.h (m + 1)) (θ := u) psb
      rw [← e, zero_div, add_zero] at this
      exact q.ne this.symm
    filter_upwards [Follows.zero.lt_iff qb h2] with i hi
    exact fun w => h1 (hi.1 w.2)
  obtain ⟨U', ib'⟩ := ib.step vb isb' cb1 cb2
  refine ⟨fun i => hzNext (P i) (Q i) (A i) (B i) (Z i) (s i), ?_, isa', isb', ⟨_, S', ia', fun q => ?_⟩, ⟨_, U', ib'⟩⟩
  swap
  · filter_upwards [latch q] with i hi
    rcases hi with hi | hi
    · exact if_pos hi
    · exact (ite_eq_left_iff.2 fun _ => hi)
  · filter_upwards [hZ, isa'.pyEq_not Follows.zero psa.ne', isb'.pyEq_not Follows.zero psb.ne'] with i k1 k2 k3
    exact hznsStep_eq k1 k2 k3

theorem refine_hznsLoop {P : ∀ i, Pfl (α i)} {p : Pfl ℝ} (h : PflApx F P p) {n : ℕ} {κ za zb : ℝ} {Q A B D : ∀ i, α i} (hQ : F.Approx Q (0.5 * κ))
    (hA : F.Approx A za) (hB : F.Approx B zb) (hx : 0 < p.xi) (hl : n < p.z.length) (k : ℕ) : ∀ {m : ℕ} {s : ∀ i, HzSt (α i)}, m + k < n →
    HzApx F p n κ za zb D m s →
    ∃ s', (∀ᶠ i in l, hznsLoop (P i) (Q i) (A i) (B i) k ((m : ℤ) + 2) (s i) = .ok (s' i)) ∧ HzApx F p n κ za zb D (m + k) s' := by
  induction k with
  | zero => intro m s _ h; exact ⟨s, Eventually.of_forall fun _ => rfl, h⟩
  | succ k ih =>
    intro m s hm hs
    obtain ⟨s', e1, h'⟩ := refine_hznsStep h hQ hA hB hx hl (by omega) hs
    obtain ⟨s'', e2, h''⟩ := ih (m := m + 1) (by omega) h'
    refine ⟨s'', ?_, by rw [show m + (k + 1) = m + 1 + k by omega]; exact h''⟩
    filter_upwards [e1, e2] with i k1 k2
    rw [hznsLoop, k1, ok_bind, show (m : ℤ) + 2 + 1 = ((m + 1 : ℕ) : ℤ) + 2 by push_cast; ring]
    exact k2

theorem refine_hzns {P : ∀ i, Pfl (α i)} {p : Pfl ℝ} (h : PflApx F P p) {n : ℕ} {κ : ℝ} {hg the dl : Pair ℝ} {G : ∀ i, Pair (α i)} {K D : ∀ i, α i}
    (hG : TwoApx F G hg) (hK : F.Approx K κ) (hD : F.Approx D (n * p.xi)) (hn : 1 ≤ n) (hnp : p.np = n) (hx : 0 < p.xi) (hl : n < p.z.length)
    (e : hzns p (n * p.xi) hg κ = .ok (the, dl))
    (s₀ : StandsOut (hzA p κ (p.h 0 + hg.x0)) (elevation κ (p.h 0 + hg.x0) (n * p.xi) (p.h n + hg.x1)) (fun j => j * p.xi) (n * p.xi) (n - 1) 0 the.x0 dl.x0)
    (s₁ : StandsOut (hzB p n κ (p.h n + hg.x1)) (elevation κ (p.h n + hg.x1) (n * p.xi) (p.h 0 + hg.x0)) (fun j => ((n : ℝ) - j) * p.xi) (n * p.xi) (n - 1) 0
      the.x1 dl.x1) :
    ∃ T L : ∀ i, Pair (α i), (∀ᶠ i in l, hzns (P i) (D i) (G i) (K i) = .ok (T i, L i)) ∧ TwoApx F T the ∧ TwoApx F L dl := by
  obtain ⟨the', dl', e', k0, k1⟩ := hzns_ok (hg := hg) (κ := κ) hn hnp hx hl
  rw [e, ok_inj, Prod.mk.injEq] at e'
  obtain ⟨rfl, rfl⟩ := e'
  obtain ⟨Z0, hZ0, aZ0⟩ := h.get (((0 : ℕ) : ℤ) + 2) _ (Pfl.get_ok (by omega))
  obtain ⟨Zn, hZn, aZn⟩ := h.get ((n : ℤ) + 2) _ (Pfl.get_ok hl)
  have hn' : (0 : ℝ) < n := by exact_mod_cast hn
  have pd : 0 < (n : ℝ) * p.xi := by positivity
  have hA := aZ0.add hG.1
  have hB := aZn.add hG.2
  obtain ⟨za, eza⟩ : ∃ za, za = p.h 0 + hg.x0 := ⟨_, rfl⟩
  obtain ⟨zb, ezb⟩ : ∃ zb, zb = p.h n + hg.x1 := ⟨_, rfl⟩
  rw [← eza] at hA
  rw [← ezb] at hB
  rw [← eza, ← ezb] at k0 k1 s₀ s₁
  have hQ : F.Approx (fun i => (0.5 * K i : α i)) (0.5 * κ) := (Refining.Approx.lit (F := F) 5 true 1).mul hK
  have hq := hQ.mul hD
  have ht := (hB.sub hA).div hD pd.ne'
  have f0 : F.Approx (fun i => ((Zn i + (G i).x1 - (Z0 i + (G i).x0)) / D i - 0.5 * K i * D i : α i)) (elevation κ za (n * p.xi) zb) := by
    have := ht.sub hq
    convert this using 1
    unfold elevation; rw [show (0.5 : ℝ) = 1 / 2 by norm_num]; ring
  have f1 : F.Approx (fun i => (-((Zn i + (G i).x1 - (Z0 i + (G i).x0)) / D i) - 0.5 * K i * D i : α i)) (elevation κ zb (n * p.xi) za) := by
    have := ht.neg.sub hq
    convert this using 1
    unfold elevation; rw [show (0.5 : ℝ) = 1 / 2 by norm_num]; ring
  have start : HzApx F p n κ za zb D 0 (fun i => ({ sa := 0.0, sb := D i, the := ⟨(Zn i + (G i).x1 - (Z0 i + (G i).x0)) / D i - 0.5 * K i * D i,
      -((Zn i + (G i).x1 - (Z0 i + (G i).x0)) / D i) - 0.5 * K i * D i⟩, dl := ⟨D i, D i⟩, wq := true } : HzSt (α i))) := by
    refine ⟨?_, ?_, ⟨_, fun _ => D, ⟨f0, le_rfl, fun j h1 h2 => by omega, .inl rfl, fun j h1 h2 => by omega, Eventually.of_forall fun i => .inl ⟨rfl, rfl⟩⟩,
      fun q => absurd q (lt_irrefl _)⟩, ⟨_, fun _ => D, ⟨f1, le_rfl, fun j h1 h2 => by omega, .inl rfl, fun j h1 h2 => by omega,
      Eventually.of_forall fun i => .inl ⟨rfl, rfl⟩⟩⟩⟩
    · have := Follows.zero (F := F)
      convert this using 1; simp
    · convert hD using 1; simp
  obtain ⟨s', es, hs⟩ := refine_hznsLoop h hQ hA hB hx hl (n - 1) (m := 0) (by omega) start
  rw [Nat.zero_add] at hs
  obtain ⟨-, -, ⟨t, S, a, -⟩, ⟨u, U, b⟩⟩ := hs
  obtain ⟨a1, a2⟩ := a.single hD k0 s₀
  obtain ⟨b1, b2⟩ := b.single hD k1 s₁
  refine ⟨fun i => (s' i).the, fun i => (s' i).dl, ?_, ⟨a1, b1⟩, ⟨a2, b2⟩⟩
  filter_upwards [hZ0, hZn, es, hD.pyEq_not Follows.zero pd.ne', h.np] with i c1 c2 c3 c4 c5
  unfold hzns
  dsimp only
  rw [show (2 : ℤ) = ((0 : ℕ) : ℤ) + 2 by norm_num, c1, ok_bind, c5, hnp]
  rw [show ((0 : ℕ) : ℤ) + 2 = 2 by norm_num, c2, ok_bind]
  unfold pyDiv
  rw [if_neg c4, ok_bind]
  by_cases w : (2 : ℤ) ≤ n
  · rw [if_pos w, show ((n : ℤ) - 1).toNat = n - 1 by omega]
    rw [show (((0 : ℕ) : ℤ) + 2) = 2 by norm_num] at c3
    rw [c3]
    rfl
  · rw [if_neg w]
    have : n - 1 = 0 := by omega
    rw [this] at c3
    have c3 := ok_inj.1 (show Except.ok _ = Except.ok (s' i) from c3)
    rw [← c3]
    rfl

end Itm
