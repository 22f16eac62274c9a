import Verif.Model.Misc
import Verif.Lemmas.Qerfi
import Verif.Lemmas.RefineVar
import Verif.Spec.Hastings

/-! `qerfi` in arithmetics of growing precision. -/

namespace Itm
open Itm.Spec Filter Asymptotics Topology

variable {ι : Type} {l : Filter ι} {α : ι → Type} [∀ i, PyNum (α i)] {ε : ι → ℝ} {F : Refining l α ε}

/-- Off the ties, rounding to integers is locally constant. -/
theorem round_locally {x : ℝ} (hx : ∀ k : ℤ, x ≠ k + 1 / 2) : ∀ᶠ y in 𝓝 x, roundHalfEven y = roundHalfEven x := by
  have key : ∀ (n : ℤ) (y : ℝ), n - 1 / 2 < y → y < n + 1 / 2 → roundHalfEven y = n := by
    intro n y h1 h2
    unfold roundHalfEven
    by_cases c : (n : ℝ) ≤ y
    · have f : ⌊y⌋ = n := by rw [Int.floor_eq_iff]; constructor <;> linarith
      rw [f, if_pos (by linarith)]
    · push Not at c
      have f : ⌊y⌋ = n - 1 := by rw [Int.floor_eq_iff]; push_cast; constructor <;> linarith
      rw [f, if_neg (by push_cast; linarith), if_pos (by push_cast; linarith)]
      ring
  obtain ⟨n, h1, h2⟩ : ∃ n : ℤ, (n : ℝ) - 1 / 2 < x ∧ x < n + 1 / 2 := by
    refine ⟨⌊x + 1 / 2⌋, ?_, ?_⟩
    · have a := Int.floor_le (x + 1 / 2)
      rcases lt_or_eq_of_le a with b | b
      · linarith
      · exact absurd (show x = ((⌊x + 1 / 2⌋ - 1 : ℤ) : ℝ) + 1 / 2 by push_cast; linarith) (hx _)
    · have := Int.lt_floor_add_one (x + 1 / 2)
      linarith
  filter_upwards [lt_mem_nhds h1, gt_mem_nhds h2] with y u1 u2
  rw [key n y u1 u2, key n x h1 h2]

theorem Spec.Refining.Approx.round4 {a : ∀ i, α i} {x : ℝ} (h : F.Approx a x) (hx : ∀ k : ℤ, x * 10000 ≠ k + 1 / 2) :
    F.Approx (fun i => PyNum.round4 (a i)) (PyNum.round4 x) := by
  have t : Tendsto (fun i => vals F a i * 10000) l (𝓝 (x * 10000)) := h.tendsto.mul_const _
  have e : ∀ᶠ i in l, PyNum.round4 (vals F a i) = PyNum.round4 x := by
    filter_upwards [t.eventually (round_locally hx)] with i hi
    show (roundHalfEven (vals F a i * 10000) : ℝ) / 10000 = (roundHalfEven (x * 10000) : ℝ) / 10000
    rw [hi]
  refine of_accurate (Vlim.const (PyNum.round4 x)) ?_
  filter_upwards [e, h.1] with i h1 h2
  rw [← h1]
  exact (F.arith i).round4 _ h2

theorem hastings_eq (q : ℝ) : hastings (tailOf q) = devt (clipq q) := by
  unfold hastings tailOf devt dev clipq
  norm_num
  ring_nf

theorem refine_qerfi1 {Q : ∀ i, α i} {q : ℝ} (hq : F.Approx Q q) (c : Untied q) : Follows l F.Approx (fun i => qerfi1 (Q i)) (qerfi1 q) := by
  have hX : F.Approx (fun i => (0.5 : α i) - Q i) (0.5 - q) := (Refining.Approx.lit _ _ _).sub hq
  have hT : F.Approx (fun i => Itm.pyMax ((0.5 : α i) - PyNum.abs (0.5 - Q i)) 0.000001) (Itm.pyMax (0.5 - PyNum.abs (0.5 - q)) 0.000001) :=
    ((Refining.Approx.lit _ _ _).sub hX.abs).pyMax (Refining.Approx.lit _ _ _)
  have eT : Itm.pyMax ((0.5 : ℝ) - PyNum.abs (0.5 - q)) 0.000001 = clipq q := by
    rw [pyMax_real, rabs]; rfl
  have hl : Real.log (clipq q) < 0 :=
    Real.log_neg (clipq_pos q) (lt_of_le_of_lt (clipq_le_half q) (by norm_num))
  -- the unrounded deviate
  have hV : Follows l (fun b y => F.Approx b y ∧ y = devt (clipq q)) (fun i => (do
      let l ← npLog (Itm.pyMax ((0.5 : α i) - PyNum.abs (0.5 - Q i)) 0.000001)
      let r ← mathSqrt (-2.0 * l)
      let f ← (((0.010328 : α i) * r + 0.802853) * r + 2.515516698) /! (((0.001308 * r + 0.189269) * r + 1.432788) * r + 1.0)
      pure (r - f) : Py (α i))) (do
      let l ← npLog (Itm.pyMax ((0.5 : ℝ) - PyNum.abs (0.5 - q)) 0.000001)
      let r ← mathSqrt (-2.0 * l)
      let f ← (((0.010328 : ℝ) * r + 0.802853) * r + 2.515516698) /! (((0.001308 * r + 0.189269) * r + 1.432788) * r + 1.0)
      pure (r - f)) := by
    refine Follows.bind (Follows.log hT) (fun U u hu' hu => ?_)
    obtain ⟨-, rfl⟩ := npLog_eq_ok.1 hu'
    rw [eT] at hu ⊢
    refine Follows.bind (Follows.sqrt ((Refining.Approx.lit _ _ _).neg.mul hu) ?_) (fun R r hr' hr => ?_)
    · exact mul_ne_zero (by norm_num) hl.ne
    obtain ⟨-, rfl⟩ := mathSqrt_eq_ok.1 hr'
    refine Follows.bind (Follows.div (((((Refining.Approx.lit _ _ _).mul hr).add (Refining.Approx.lit _ _ _)).mul hr).add (Refining.Approx.lit _ _ _))
      (((((((Refining.Approx.lit _ _ _).mul hr).add (Refining.Approx.lit _ _ _)).mul hr).add (Refining.Approx.lit _ _ _)).mul hr).add (Refining.Approx.lit _ _ _))) (fun G g hg' hg => ?_)
    obtain ⟨-, rfl⟩ := pyDiv_eq_ok.1 hg'
    refine Follows.pure ⟨hr.sub hg, ?_⟩
    unfold devt dev
    norm_num
  have ex : ∀ {β : Type} [PyNum β] (q : β), qerfi1 q = (do
      let v ← (do
        let l ← npLog (Itm.pyMax ((0.5 : β) - PyNum.abs (0.5 - q)) 0.000001)
        let r ← mathSqrt (-2.0 * l)
        let f ← (((0.010328 : β) * r + 0.802853) * r + 2.515516698) /! (((0.001308 * r + 0.189269) * r + 1.432788) * r + 1.0)
        pure (r - f))
      pure (PyNum.round4 (if 0.5 - q < 0.0 then -v else v))) := by
    intro β _ q
    unfold qerfi1
    simp only [bind_assoc, pure_bind]
    rfl
  rw [ex]
  simp only [ex]
  refine Follows.bind hV (fun V v _ hv => Follows.pure ?_)
  obtain ⟨hv, e⟩ := hv
  rw [← hastings_eq] at e
  by_cases half : q = 1 / 2
  · have sm : |v| < 0.000001 := by
      rw [e, hastings_eq, half]
      have : clipq (1 / 2) = 1 / 2 := by unfold clipq; norm_num
      rw [this]
      exact devt_half
    obtain ⟨s1, s2⟩ := abs_lt.1 sm
    have z : ∀ y : ℝ, -0.000001 < y → y < 0.000001 → (∀ k : ℤ, y * 10000 ≠ k + 1 / 2) ∧ (PyNum.round4 y : ℝ) = 0 := by
      intro y h1 h2
      norm_num at h1 h2
      have ut : ∀ k : ℤ, y * 10000 ≠ k + 1 / 2 := by
        intro k hk
        have u1 : (-1 : ℝ) < k := by linarith
        have u2 : (k : ℝ) < 0 := by linarith
        have u1' : (-1 : ℤ) < k := by exact_mod_cast u1
        have u2' : k < 0 := by exact_mod_cast u2
        omega
      refine ⟨ut, ?_⟩
      show (roundHalfEven (y * 10000) : ℝ) / 10000 = 0
      have : roundHalfEven (y * 10000) = 0 := by
        unfold roundHalfEven
        by_cases c : 0 ≤ y * 10000
        · have f : ⌊y * 10000⌋ = 0 := by rw [Int.floor_eq_iff]; norm_num; constructor <;> linarith
          rw [f, if_pos (by norm_num; linarith)]
        · push Not at c
          have f : ⌊y * 10000⌋ = -1 := by rw [Int.floor_eq_iff]; norm_num; constructor <;> linarith
          rw [f, if_neg (by norm_num; linarith), if_pos (by norm_num; linarith)]
          norm_num
      rw [this]; norm_num
    have r1 := hv.round4 (z v s1 s2).1
    have r2 := hv.neg.round4 (z (-v) (by linarith) (by linarith)).1
    rw [(z v s1 s2).2] at r1
    rw [(z (-v) (by linarith) (by linarith)).2] at r2
    have e0 : (PyNum.round4 (if (0.5 : ℝ) - q < 0.0 then -v else v) : ℝ) = 0 := by
      split_ifs
      · exact (z (-v) (by linarith) (by linarith)).2
      · exact (z v s1 s2).2
    rw [e0]
    refine (r2.choose r1 (c := fun i => (0.5 : α i) - Q i < 0.0)).congr (Eventually.of_forall fun i => ?_)
    split_ifs <;> rfl
  · have ut : ∀ k : ℤ, v * 10000 ≠ k + 1 / 2 := by
      rcases c with c | c
      · exact absurd c half
      · rw [e]; exact c
    have un : ∀ k : ℤ, -v * 10000 ≠ k + 1 / 2 := by
      intro k hk
      refine ut (-k - 1) ?_
      push_cast
      linarith
    have dec : ∀ᶠ i in l, ((0.5 : α i) - Q i < 0.0 ↔ (0.5 : ℝ) - q < 0.0) := by
      rw [zero_lit]
      refine hX.lt_iff Follows.zero (fun h => half ?_)
      norm_num at h
      linarith
    by_cases s : (0.5 : ℝ) - q < 0.0
    · rw [if_pos s]
      refine (hv.neg.round4 un).congr ?_
      filter_upwards [dec] with i hi
      rw [if_pos (hi.2 s)]
    · rw [if_neg s]
      refine (hv.round4 ut).congr ?_
      filter_upwards [dec] with i hi
      rw [if_neg (fun w => s (hi.1 w))]

/-- The deviate of one percentage. -/
theorem refine_level (F : Refining l α ε) (x : ℤ) (c : Untied ((x : ℝ) / 100)) : Follows l F.Approx (fun i => qerfi1 (PyNum.ofInt x / 100.0 : α i)) (qerfi1 ((x : ℝ) / 100.0)) := by
  have hx : F.Approx (fun i => (PyNum.ofInt x : α i)) (x : ℝ) := by
    have hb : ∀ᶠ i in l, |(x : ℝ)| ≤ 1 / ε i := by
      have h0 : (0 : ℝ) < 1 / (|(x : ℝ)| + 1) := by positivity
      filter_upwards [F.tends.eventually (gt_mem_nhds h0)] with i hi
      have := F.pos i
      rw [le_div_iff₀ this]
      rw [lt_div_iff₀ (by positivity)] at hi
      nlinarith [abs_nonneg (x : ℝ)]
    refine ⟨hb.mono fun i hi => ((F.arith i).ofInt x hi).1, ?_⟩
    refine IsBigO.of_bound 1 ?_
    filter_upwards [hb] with i hi
    rw [((F.arith i).ofInt x hi).2, sub_self, norm_zero]
    positivity
  refine refine_qerfi1 (hx.div (Refining.Approx.lit _ _ _) (by norm_num)) ?_
  rwa [show (100.0 : ℝ) = 100 by norm_num]

end Itm
