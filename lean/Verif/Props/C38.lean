import Verif.Lemmas.PrepReal
import Verif.Lemmas.Witness
import Mathlib.Analysis.Real.Pi.Bounds

/-! C38: the area preparation `qlra`. -/

namespace Itm.Props
open Itm Itm.Spec

/-- Height added for careful siting: between 1 and `1 + q` metres times a terrain factor. -/
theorem qlraHe_bounds {k : ℤ} {hg dh : ℝ} (hh : 0 < hg) :
    hg ≤ qlraHe k hg dh ∧ qlraHe k hg dh ≤ hg + 10 ∧ (k ≤ 0 → qlraHe k hg dh = hg) ∧ (0 < k → hg < qlraHe k hg dh) ∧
      (k = 1 → qlraHe k hg dh ≤ hg + 5) := by
  unfold qlraHe
  by_cases h0 : k ≤ 0
  · rw [if_pos h0]
    exact ⟨le_rfl, by linarith, fun _ => rfl, fun h => absurd h0 (by omega), fun h => absurd h0 (by omega)⟩
  · rw [if_neg h0]
    simp only [pyMax_real, pyMin_real, rexp, rsin, two_lit, five_lit, one_lit]
    have he1 : Real.exp (-(min 20.0 (2 * hg / max 1e-3 dh))) ≤ 1 := by
      apply Real.exp_le_one_iff.2
      have : 0 ≤ 2 * hg / max 1e-3 dh := div_nonneg (by linarith) (le_max_of_le_left (by norm_num))
      have : 0 ≤ min 20.0 (2 * hg / max 1e-3 dh) := le_min (by norm_num) this
      linarith
    have he0 := Real.exp_pos (-(min 20.0 (2 * hg / max 1e-3 dh)))
    generalize Real.exp (-(min 20.0 (2 * hg / max 1e-3 dh))) = E at *
    have hs : hg < 5 → 0 ≤ Real.sin (0.3141593 * hg) := by
      intro h
      apply Real.sin_nonneg_of_nonneg_of_le_pi (by positivity)
      have := Real.pi_gt_three
      norm_num; linarith
    have hs1 := Real.sin_le_one (0.3141593 * hg)
    have e9 : (9.0 : ℝ) = 9 := by norm_num
    have e4 : (4.0 : ℝ) = 4 := by norm_num
    rw [e9, e4]
    have key : ∀ m : ℝ, 0 ≤ m → 0 ≤ (if hg < 5 then m * Real.sin (0.3141593 * hg) else m) ∧
        (if hg < 5 then m * Real.sin (0.3141593 * hg) else m) ≤ m := by
      intro m hm
      split_ifs with h
      · exact ⟨mul_nonneg hm (hs h), by nlinarith⟩
      · exact ⟨hm, le_rfl⟩
    obtain ⟨k1, k2⟩ := key (if k ≠ 1 then 9 else 4) (by split_ifs <;> norm_num)
    generalize (if hg < 5 then (if k ≠ 1 then (9 : ℝ) else 4) * Real.sin (0.3141593 * hg) else if k ≠ 1 then 9 else 4) = q at *
    have hm : (if k ≠ 1 then (9 : ℝ) else 4) ≤ 9 := by split_ifs <;> norm_num
    have hp : 0 < (1 + q) * E := by positivity
    refine ⟨by linarith, by nlinarith, fun h => absurd h h0, fun _ => by linarith, fun h => ?_⟩
    rw [if_neg (by simpa using h)] at k2
    nlinarith

/-- **C38** `qlra` never raises for positive heights and curvature and irregularity `≥ 0`; it writes effective heights, horizon
distances and angles, `mdp` and the markers and nothing else. -/
theorem C38_total {kst : Pair ℤ} {p : PropSt ℝ} (hg0 : 0 < p.hg.x0) (hg1 : 0 < p.hg.x1) (hκ : 0 < p.gme) (hd : 0 ≤ p.dh) :
    ∃ he0 he1 q, qlra kst p = .ok q ∧ q = { p with
        he := ⟨he0, he1⟩
        dl := ⟨roughHorizon p.gme p.dh he0, roughHorizon p.gme p.dh he1⟩
        the := ⟨roughAngle p.gme p.dh he0, roughAngle p.gme p.dh he1⟩
        mdp := 1
        lvar := if 0 < p.klimx then 5 else if 0 ≤ p.mdvarx then max p.lvar 4 else max p.lvar 3
        mdvar := if 0 ≤ p.mdvarx then some p.mdvarx else p.mdvar
        klim := if 0 < p.klimx then some p.klimx else p.klim } ∧
      (p.hg.x0 ≤ he0 ∧ he0 ≤ p.hg.x0 + 10) ∧ (p.hg.x1 ≤ he1 ∧ he1 ≤ p.hg.x1 + 10) ∧
      (kst.x0 ≤ 0 → he0 = p.hg.x0) ∧ (kst.x1 ≤ 0 → he1 = p.hg.x1) ∧ (0 < kst.x0 → p.hg.x0 < he0) ∧ (0 < kst.x1 → p.hg.x1 < he1) := by
  have b0 := qlraHe_bounds (k := kst.x0) (dh := p.dh) hg0
  have b1 := qlraHe_bounds (k := kst.x1) (dh := p.dh) hg1
  refine ⟨qlraHe kst.x0 p.hg.x0 p.dh, qlraHe kst.x1 p.hg.x1 p.dh, _, ?_, rfl, ⟨b0.1, b0.2.1⟩, ⟨b1.1, b1.2.1⟩, b0.2.2.1, b1.2.2.1, b0.2.2.2.1, b1.2.2.2.1⟩
  unfold qlra
  dsimp only
  rw [qlraHorizon_ok hκ (by linarith [b0.1]) hd, ok_bind]
  dsimp only
  rw [qlraHorizon_ok hκ (by linarith [b1.1]) hd, ok_bind]
  dsimp only
  rw [pure_ok, ok_inj]
  obtain ⟨p', hp'⟩ : ∃ p' : PropSt ℝ, p' = { p with
      he := ⟨qlraHe kst.x0 p.hg.x0 p.dh, qlraHe kst.x1 p.hg.x1 p.dh⟩
      dl := ⟨roughHorizon p.gme p.dh (qlraHe kst.x0 p.hg.x0 p.dh), roughHorizon p.gme p.dh (qlraHe kst.x1 p.hg.x1 p.dh)⟩
      the := ⟨roughAngle p.gme p.dh (qlraHe kst.x0 p.hg.x0 p.dh), roughAngle p.gme p.dh (qlraHe kst.x1 p.hg.x1 p.dh)⟩
      mdp := 1 } := ⟨_, rfl⟩
  rw [← hp']
  have m := prepMarks_marked p'
  rw [m.rest, m.lvar, m.mdvar, m.klim, hp']

/-- **C38** What the results are worth: horizon distances are positive and not beyond the smooth-earth horizon. -/
theorem C38_bounds {kst : Pair ℤ} {p q : PropSt ℝ} (hg0 : 0 < p.hg.x0) (hg1 : 0 < p.hg.x1) (hκ : 0 < p.gme) (hd : 0 ≤ p.dh)
    (h : qlra kst p = .ok q) :
    0 < q.dl.x0 ∧ q.dl.x0 ≤ Real.sqrt (2 * q.he.x0 / p.gme) ∧ 0 < q.dl.x1 ∧ q.dl.x1 ≤ Real.sqrt (2 * q.he.x1 / p.gme) ∧
      q.mdp = 1 ∧ 3 ≤ q.lvar ∧ (0 ≤ p.mdvarx → 4 ≤ q.lvar) ∧ (0 < p.klimx → q.lvar = 5) := by
  obtain ⟨he0, he1, q', e, hq', b0, b1, -⟩ := C38_total (kst := kst) hg0 hg1 hκ hd
  rw [h, ok_inj] at e
  rw [e, hq']
  dsimp only
  refine ⟨roughHorizon_pos hκ (by linarith), roughHorizon_le, roughHorizon_pos hκ (by linarith), roughHorizon_le, rfl, ?_, ?_, ?_⟩
  · split_ifs <;> omega
  · intro h1; rw [if_pos h1]; split_ifs <;> omega
  · intro h1; rw [if_pos h1]

/-- **C38** More careful siting (0 random, 1 careful, 2 very careful) never lowers the effective height. -/
theorem C38_siting {i k : ℤ} {hg dh : ℝ} (hh : 0 < hg) (hik : i ≤ k) (hk : k ≤ 2) : qlraHe i hg dh ≤ qlraHe k hg dh := by
  rcases le_or_gt i 0 with h | h
  · rw [(qlraHe_bounds hh).2.2.1 h]; exact (qlraHe_bounds hh).1
  · rcases eq_or_lt_of_le hik with e | hl
    · rw [e]
    · have e1 : i = 1 := by omega
      have e2 : k = 2 := by omega
      subst e1; subst e2
      unfold qlraHe
      rw [if_neg (by omega), if_neg (by omega)]
      simp only [ne_eq, not_true_eq_false, if_false, show ¬ (2 : ℤ) = 1 by omega, not_false_eq_true, if_true, rexp, rsin]
      have := Real.exp_pos (-(pyMin 20.0 (2.0 * hg / pyMax 1e-3 dh)))
      generalize Real.exp (-(pyMin 20.0 (2.0 * hg / pyMax 1e-3 dh))) = E at *
      have e9 : (9.0 : ℝ) = 9 := by norm_num
      have e4 : (4.0 : ℝ) = 4 := by norm_num
      rw [e9, e4, one_lit, five_lit]
      by_cases h5 : hg < 5
      · rw [if_pos h5, if_pos h5]
        have hs : 0 ≤ Real.sin (0.3141593 * hg) := by
          apply Real.sin_nonneg_of_nonneg_of_le_pi (by positivity)
          have := Real.pi_gt_three
          norm_num; linarith
        generalize Real.sin (0.3141593 * hg) = S at *
        have : 0 ≤ S * E := by positivity
        nlinarith
      · rw [if_neg h5, if_neg h5]; nlinarith

/-- The same for the whole call: raising the siting code of the transmitter does not lower its effective height. -/
theorem C38_siting_qlra {kst kst' : Pair ℤ} {p q q' : PropSt ℝ} (hg0 : 0 < p.hg.x0) (hg1 : 0 < p.hg.x1) (hκ : 0 < p.gme) (hd : 0 ≤ p.dh)
    (h0 : kst.x0 ≤ kst'.x0) (h1 : kst.x1 ≤ kst'.x1) (h02 : kst'.x0 ≤ 2) (h12 : kst'.x1 ≤ 2)
    (h : qlra kst p = .ok q) (h' : qlra kst' p = .ok q') : q.he.x0 ≤ q'.he.x0 ∧ q.he.x1 ≤ q'.he.x1 := by
  have key : ∀ {k : Pair ℤ} {r : PropSt ℝ}, qlra k p = .ok r → r.he = ⟨qlraHe k.x0 p.hg.x0 p.dh, qlraHe k.x1 p.hg.x1 p.dh⟩ := by
    intro k r hr
    unfold qlra at hr
    obtain ⟨⟨v1, v2⟩, -, hr⟩ := bind_eq_ok.1 hr
    obtain ⟨⟨w1, w2⟩, -, hr⟩ := bind_eq_ok.1 hr
    dsimp only at hr
    rw [pure_ok, ok_inj] at hr
    rw [← hr, (prepMarks_marked _).rest]
  rw [key h, key h']
  exact ⟨C38_siting hg0 h0 h02, C38_siting hg1 h1 h12⟩

theorem npSqrt_eq_ok {x r : ℝ} (h : npSqrt x = .ok r) : 0 ≤ x ∧ r = Real.sqrt x := by
  unfold npSqrt at h
  split_ifs at h with c
  rw [zero_lit] at c
  exact ⟨not_lt.1 c, (ok_inj.1 h).symm⟩

theorem qlraHorizon_only {he gme dh : ℝ} {r : ℝ × ℝ} (h : qlraHorizon he gme dh = .ok r) : 0 ≤ dh ∧ 0 < he / gme := by
  unfold qlraHorizon at h
  obtain ⟨a, ha, h⟩ := bind_eq_ok.1 h
  obtain ⟨q, hq, h⟩ := bind_eq_ok.1 h
  obtain ⟨s, hs, h⟩ := bind_eq_ok.1 h
  obtain ⟨b, -, h⟩ := bind_eq_ok.1 h
  obtain ⟨t, ht, -⟩ := bind_eq_ok.1 h
  obtain ⟨-, ea⟩ := pyDiv_eq_ok.1 ha
  obtain ⟨-, eq⟩ := npSqrt_eq_ok hq
  obtain ⟨hs0, -⟩ := npSqrt_eq_ok hs
  obtain ⟨hq0, -⟩ := pyDiv_eq_ok.1 ht
  rw [pyMax_real] at hs0
  have hm : 0 < max he 5.0 := lt_of_lt_of_le (by norm_num) (le_max_right _ _)
  refine ⟨?_, ?_⟩
  · by_contra c
    have := div_neg_of_neg_of_pos (not_le.1 c) hm
    linarith
  · have : 0 < a := by
      by_contra c
      rw [Real.sqrt_eq_zero_of_nonpos (not_lt.1 c)] at eq
      exact hq0 eq
    rw [ea, two_lit, mul_div_assoc] at this
    linarith

/-- **C38** (only usable input) `qlra` never returns for a negative irregularity, nor where an effective height and the curvature do not
have the same sign: the roots are of negative numbers or the divisor vanishes. -/
theorem C38_only_usable {kst : Pair ℤ} {p q : PropSt ℝ} (h : qlra kst p = .ok q) :
    0 ≤ p.dh ∧ 0 < q.he.x0 / p.gme ∧ 0 < q.he.x1 / p.gme := by
  unfold qlra at h
  obtain ⟨⟨v1, v2⟩, h1, h⟩ := bind_eq_ok.1 h
  obtain ⟨⟨w1, w2⟩, h2, h⟩ := bind_eq_ok.1 h
  dsimp only at h
  rw [pure_ok, ok_inj] at h
  obtain ⟨a, b⟩ := qlraHorizon_only h1
  obtain ⟨-, c⟩ := qlraHorizon_only h2
  have e : q.he = ⟨qlraHe kst.x0 p.hg.x0 p.dh, qlraHe kst.x1 p.hg.x1 p.dh⟩ := by rw [← h, (prepMarks_marked _).rest]
  rw [e]
  exact ⟨a, b, c⟩

/-- A state to which the theorems apply. -/
example : ∃ q, qlra ⟨0, 1⟩ { blank 0 smoothIn with hg := ⟨3, 10⟩, dh := 90 } = .ok q ∧ q.he.x0 = 3 ∧ 10 < q.he.x1 := by
  obtain ⟨he0, he1, q, e, hq, -, -, h0, -, -, h1⟩ := C38_total (kst := ⟨0, 1⟩) (p := { blank 0 smoothIn with hg := ⟨3, 10⟩, dh := 90 })
    (by norm_num) (by norm_num) (by simp [blank, smoothIn, tangentIn]; norm_num) (by norm_num)
  exact ⟨q, e, by rw [hq]; exact h0 (by norm_num), by rw [hq]; exact h1 (by norm_num)⟩

example : (qlraHe 1 3 90 : ℝ) ≤ qlraHe 2 3 90 := C38_siting (by norm_num) (by norm_num) (by norm_num)

end Itm.Props
