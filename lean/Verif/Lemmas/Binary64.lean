import Verif.Spec.Binary64
import Verif.Lemmas.Chop

/-! Rounding to the nearest double, and the laws of `Spec.Rounding` for doubles. -/

namespace Itm
open Itm.Spec

theorem ulp_pos (x : ℝ) : 0 < ulp x := by unfold ulp; positivity
theorem ulp_neg (x : ℝ) : ulp (-x) = ulp x := by unfold ulp; rw [abs_neg]

theorem nearest_odd (x : ℝ) : nearest (-x) = -nearest x := by
  unfold nearest; rw [ulp_neg, neg_div, round_neg]; push_cast; ring

theorem nearest_le {x : ℝ} {n : ℤ} (h : x ≤ n * ulp x) : nearest x ≤ n * ulp x := by
  have p := ulp_pos x
  have : roundHalfEven (x / ulp x) ≤ n := by
    rw [← round_int n]; exact round_mono ((div_le_iff₀ p).2 h)
  exact mul_le_mul_of_nonneg_right (by exact_mod_cast this) p.le

theorem le_nearest {x : ℝ} {n : ℤ} (h : n * ulp x ≤ x) : n * ulp x ≤ nearest x := by
  have p := ulp_pos x
  have : n ≤ roundHalfEven (x / ulp x) := by
    rw [← round_int n]; exact round_mono ((le_div_iff₀ p).2 h)
  exact mul_le_mul_of_nonneg_right (by exact_mod_cast this) p.le

theorem nearest_mul {x : ℝ} {n : ℤ} (h : x = n * ulp x) : nearest x = x :=
  le_antisymm ((nearest_le h.le).trans h.ge) (h.le.trans (le_nearest h.ge))

theorem nearest_zero : nearest 0 = 0 := nearest_mul (n := 0) (by simp)

theorem nearest_nonneg {x : ℝ} (h : 0 ≤ x) : 0 ≤ nearest x := by
  have := le_nearest (x := x) (n := 0) (by simpa using h)
  simpa using this

theorem nearest_nonpos {x : ℝ} (h : x ≤ 0) : nearest x ≤ 0 := by
  have := nearest_le (x := x) (n := 0) (by simpa using h)
  simpa using this

/-- Powers of two are multiples of smaller ones. -/
theorem zpow_mul_of_le {e f : ℤ} (h : e ≤ f) : ∃ j : ℕ, (2 : ℝ) ^ f = ((2 ^ j : ℤ) : ℝ) * 2 ^ e := by
  obtain ⟨j, hj⟩ := Int.eq_ofNat_of_zero_le (sub_nonneg.2 h)
  refine ⟨j, ?_⟩
  rw [show f = (j : ℤ) + e by omega, zpow_add₀ (by norm_num)]
  push_cast
  rw [zpow_natCast]

theorem nearest_mono : Monotone nearest := by
  have key : ∀ {x y : ℝ}, 0 < x → x ≤ y → nearest x ≤ nearest y := by
    intro x y hx h
    have hy : 0 < y := hx.trans_le h
    have hl : Int.log 2 |x| ≤ Int.log 2 |y| := Int.log_mono_right (abs_pos.2 hx.ne') (by rw [abs_of_pos hx, abs_of_pos hy]; exact h)
    by_cases e : max (Int.log 2 |x| - 52) (-1074) = max (Int.log 2 |y| - 52) (-1074)
    · have hu : ulp x = ulp y := by unfold ulp; rw [e]
      have p := ulp_pos y
      unfold nearest
      rw [hu]
      exact mul_le_mul_of_nonneg_right (by exact_mod_cast round_mono (div_le_div_of_nonneg_right h p.le)) p.le
    · have ey : max (Int.log 2 |y| - 52) (-1074) = Int.log 2 |y| - 52 := by omega
      have hlt : Int.log 2 |x| + 1 ≤ Int.log 2 |y| := by omega
      have he : max (Int.log 2 |x| - 52) (-1074) ≤ Int.log 2 |y| := by omega
      have xb : x ≤ (2 : ℝ) ^ Int.log 2 |y| := by
        have := lt_log x
        rw [abs_of_pos hx] at this
        refine this.le.trans ?_
        rw [← abs_of_pos hx]
        exact zpow_le_zpow_right₀ (by norm_num) hlt
      have yb : (2 : ℝ) ^ Int.log 2 |y| ≤ y := by
        have := log_le hy.ne'
        rwa [abs_of_pos hy] at this ⊢
      obtain ⟨j, hj⟩ := zpow_mul_of_le he
      obtain ⟨i, hi⟩ := zpow_mul_of_le (show max (Int.log 2 |y| - 52) (-1074) ≤ Int.log 2 |y| by omega)
      have h1 : nearest x ≤ (2 : ℝ) ^ Int.log 2 |y| := by
        rw [hj]
        refine nearest_le ?_
        unfold ulp
        rw [← hj]; exact xb
      have h2 : (2 : ℝ) ^ Int.log 2 |y| ≤ nearest y := by
        rw [hi]
        refine le_nearest ?_
        unfold ulp
        rw [← hi]; exact yb
      exact h1.trans h2
  intro x y h
  rcases lt_trichotomy x 0 with hx | hx | hx
  · rcases lt_or_ge y 0 with hy | hy
    · have := key (neg_pos.2 hy) (neg_le_neg h)
      rw [nearest_odd, nearest_odd] at this
      linarith
    · exact (nearest_nonpos hx.le).trans (nearest_nonneg hy)
  · subst hx; rw [nearest_zero]; exact nearest_nonneg h
  · exact key hx h

/-- `|x|` has at most 53 digits before the unit. -/
theorem lt_ulp (x : ℝ) : |x| < 2 ^ 53 * ulp x := by
  refine (lt_log x).trans_le ?_
  have : (2 : ℝ) ^ (Int.log 2 |x| + 1) ≤ 2 ^ (53 + max (Int.log 2 |x| - 52) (-1074)) := zpow_le_zpow_right₀ (by norm_num) (by omega)
  rw [zpow_add₀ (by norm_num) 53] at this
  unfold ulp
  exact_mod_cast this

theorem nearest_half (x : ℝ) : |nearest x - x| ≤ ulp x / 2 := by
  have p := ulp_pos x
  have h := abs_round_sub_le (x / ulp x)
  have e : nearest x - x = (roundHalfEven (x / ulp x) - x / ulp x) * ulp x := by
    unfold nearest; rw [sub_mul, div_mul_cancel₀ _ p.ne']
  rw [e, abs_mul, abs_of_pos p]
  nlinarith

theorem nearest_close (x : ℝ) : |nearest x - x| ≤ 2⁻¹ ^ 53 * |x| + 2⁻¹ ^ 1075 := by
  by_cases hx : x = 0
  · subst hx; rw [nearest_zero]; simp
  refine (nearest_half x).trans ?_
  have h1 := log_le hx
  unfold ulp
  rcases le_total (Int.log 2 |x| - 52) (-1074) with h | h
  · rw [max_eq_right h]
    have : ((2 : ℝ) ^ (-1074 : ℤ)) / 2 = 2⁻¹ ^ 1075 := by
      rw [zpow_neg, show (1074 : ℤ) = ((1074 : ℕ) : ℤ) by norm_num, zpow_natCast, ← inv_pow, pow_succ _ 1074, div_eq_mul_inv]
    rw [this]
    exact le_add_of_nonneg_left (by positivity)
  · rw [max_eq_left h, zpow_sub₀ (by norm_num)]
    have : (2 : ℝ) ^ Int.log 2 |x| / 2 ^ (52 : ℤ) / 2 = 2⁻¹ ^ 53 * 2 ^ Int.log 2 |x| := by
      rw [show (52 : ℤ) = ((52 : ℕ) : ℤ) by norm_num, zpow_natCast]; ring
    rw [this]
    have h2 : (2⁻¹ : ℝ) ^ 53 * 2 ^ Int.log 2 |x| ≤ 2⁻¹ ^ 53 * |x| := mul_le_mul_of_nonneg_left h1 (by positivity)
    exact h2.trans (le_add_of_nonneg_right (by positivity))

theorem nearest_digits (x : ℝ) : |roundHalfEven (x / ulp x)| ≤ 2 ^ 53 ∧ -1074 ≤ max (Int.log 2 |x| - 52) (-1074) := by
  refine ⟨?_, le_max_right _ _⟩
  have h := lt_ulp x
  have p := ulp_pos x
  have hb : |x / ulp x| ≤ ((2 ^ 53 : ℤ) : ℝ) := by
    rw [abs_div, abs_of_pos p, div_le_iff₀ p]; exact_mod_cast h.le
  rw [abs_le] at hb ⊢
  constructor
  · have := round_mono (x := ((-2 ^ 53 : ℤ) : ℝ)) (y := x / ulp x) (by push_cast at hb ⊢; linarith [hb.1])
    rwa [round_int] at this
  · have := round_mono hb.2
    rwa [round_int] at this

theorem nearest_binary (x : ℝ) : Binary (nearest x) := ⟨_, _, (nearest_digits x).1, (nearest_digits x).2, rfl⟩

/-- Binary numbers are multiples of their unit. -/
theorem Spec.Binary.mul {x : ℝ} (h : Binary x) : ∃ n : ℤ, x = n * ulp x := by
  obtain ⟨n, k, hn, hk, e⟩ := h
  by_cases hx : x = 0
  · exact ⟨0, by simp [hx]⟩
  have n0 : n ≠ 0 := by rintro rfl; apply hx; rw [e]; simp
  have k0 : (0 : ℝ) < 2 ^ k := by positivity
  have hax : |x| = |(n : ℝ)| * 2 ^ k := by rw [e, abs_mul, abs_of_pos k0]
  by_cases c : max (Int.log 2 |x| - 52) (-1074) ≤ k
  · obtain ⟨j, hj⟩ := zpow_mul_of_le c
    refine ⟨n * 2 ^ j, ?_⟩
    rw [e, hj]
    conv_rhs => rw [← hj, ← e]
    unfold ulp
    push_cast; ring
  · have hl : k + 53 ≤ Int.log 2 |x| := by omega
    have h1 : (2 : ℝ) ^ (k + 53) ≤ |x| := le_trans (zpow_le_zpow_right₀ (by norm_num) hl) (log_le hx)
    have e53 : |n| = 2 ^ 53 := by
      refine le_antisymm hn ?_
      rw [hax, zpow_add₀ (by norm_num), mul_comm ((2 : ℝ) ^ k)] at h1
      have := le_of_mul_le_mul_right h1 k0
      exact_mod_cast this
    have hax' : |x| = (2 : ℝ) ^ (53 + k) := by
      rw [hax, zpow_add₀ (by norm_num)]
      have : |(n : ℝ)| = 2 ^ 53 := by exact_mod_cast e53
      rw [this]; norm_cast
    have hlog : Int.log 2 |x| = 53 + k := by
      rw [hax']
      have := Int.log_zpow (R := ℝ) (b := 2) (by norm_num) (53 + k)
      exact_mod_cast this
    have hu : ulp x = 2 ^ (k + 1) := by
      unfold ulp
      rw [hlog, max_eq_left (by omega)]
      congr 1; ring
    rw [hu]
    rcases abs_choice n with a | a
    · refine ⟨2 ^ 52, ?_⟩
      rw [e, show n = 2 ^ 53 by rw [← a, e53], zpow_add₀ (by norm_num)]
      push_cast; ring
    · refine ⟨-2 ^ 52, ?_⟩
      rw [e, show n = -2 ^ 53 by rw [← e53, a, neg_neg], zpow_add₀ (by norm_num)]
      push_cast; ring

theorem Spec.Binary.nearest {x : ℝ} (h : Binary x) : nearest x = x := by
  obtain ⟨n, hn⟩ := h.mul
  exact nearest_mul hn

theorem nearest_nearest (x : ℝ) : nearest (nearest x) = nearest x := (nearest_binary x).nearest

theorem Spec.Binary.neg {x : ℝ} (h : Binary x) : Binary (-x) := by
  obtain ⟨n, k, h1, h2, h3⟩ := h
  exact ⟨-n, k, by rwa [abs_neg], h2, by rw [h3]; push_cast; ring⟩

theorem Spec.Binary.abs {x : ℝ} (h : Binary x) : Binary |x| := by
  rcases abs_choice x with e | e <;> rw [e]
  · exact h
  · exact h.neg

/-- A binary number not smaller than `x > 0` in magnitude is a multiple of the unit of `x`; so is every number between the leading digit of `x` and `x`. -/
theorem Spec.Binary.mul_ulp {x y : ℝ} (h : Binary y) (hy : y ≠ 0) (hx : x ≠ 0) (c : (2 : ℝ) ^ Int.log 2 |x| ≤ |y| ∨ ulp x = 2 ^ (-1074 : ℤ)) : ∃ n : ℤ, y = n * ulp x := by
  obtain ⟨n, hn⟩ := h.mul
  have le : max (Int.log 2 |x| - 52) (-1074) ≤ max (Int.log 2 |y| - 52) (-1074) := by
    rcases c with c | c
    · have : Int.log 2 |x| ≤ Int.log 2 |y| := (Int.zpow_le_iff_le_log (b := 2) (by norm_num) (abs_pos.2 hy)).1 (by exact_mod_cast c)
      omega
    · have : max (Int.log 2 |x| - 52) (-1074) = -1074 := zpow_right_injective₀ (a := (2 : ℝ)) (by norm_num) (by norm_num) c
      omega
  obtain ⟨j, hj⟩ := zpow_mul_of_le le
  refine ⟨n * 2 ^ j, ?_⟩
  rw [hn]
  conv_rhs => unfold ulp
  conv_lhs => unfold ulp
  rw [hj]
  push_cast; ring

/-- Between `x > 0`, rounded up, and the multiple of the unit below it lies no binary number. -/
theorem gap_below {x y : ℝ} (hx : 0 < x) (r : x < nearest x) (h : Binary y) (q : y ≤ x) : y ≤ nearest x - ulp x := by
  have p := ulp_pos x
  by_contra hy
  push Not at hy
  have hlog : ulp x = 2 ^ (-1074 : ℤ) ∨ (2 : ℝ) ^ Int.log 2 |x| ≤ nearest x - ulp x := by
    rcases le_total (Int.log 2 |x| - 52) (-1074) with a | a
    · left; unfold ulp; rw [max_eq_right a]
    · right
      obtain ⟨i, hi⟩ := zpow_mul_of_le (show max (Int.log 2 |x| - 52) (-1074) ≤ Int.log 2 |x| by omega)
      have lx := log_le hx.ne'
      rw [abs_of_pos hx] at lx
      have hu : ((2 ^ i : ℤ) : ℝ) * ulp x = (2 : ℝ) ^ Int.log 2 |x| := by rw [hi]; rfl
      have l1 : ((2 ^ i : ℤ) : ℝ) * ulp x < roundHalfEven (x / ulp x) * ulp x := by
        rw [hu, abs_of_pos hx]
        exact lx.trans_lt r
      have l3 : (2 ^ i : ℤ) + 1 ≤ roundHalfEven (x / ulp x) := by exact_mod_cast lt_of_mul_lt_mul_right l1 p.le
      have l4 : ((2 ^ i : ℤ) : ℝ) + 1 ≤ roundHalfEven (x / ulp x) := by exact_mod_cast l3
      have l5 := mul_le_mul_of_nonneg_right l4 p.le
      rw [← hu]
      unfold nearest
      linarith
  have n0 : 0 ≤ nearest x - ulp x := by
    have : 0 < nearest x := hx.trans r
    unfold nearest at this ⊢
    have := pos_of_mul_pos_left this p.le
    have : 1 ≤ roundHalfEven (x / ulp x) := by exact_mod_cast this
    have : (1 : ℝ) ≤ roundHalfEven (x / ulp x) := by exact_mod_cast this
    nlinarith
  have y0 : 0 < y := by linarith
  obtain ⟨n, hn⟩ := h.mul_ulp (x := x) y0.ne' hx.ne' (by
    rcases hlog with a | a
    · exact Or.inr a
    · left; rw [abs_of_pos y0]; linarith)
  rw [hn] at hy q
  have e1 : nearest x = roundHalfEven (x / ulp x) * ulp x := rfl
  rw [e1] at hy r
  have a1 : ((roundHalfEven (x / ulp x) - 1 : ℤ) : ℝ) * ulp x < n * ulp x := by push_cast; linarith
  have a2 : (n : ℝ) * ulp x < roundHalfEven (x / ulp x) * ulp x := by linarith
  have a3 : roundHalfEven (x / ulp x) - 1 < n := by exact_mod_cast lt_of_mul_lt_mul_right a1 p.le
  have a4 : n < roundHalfEven (x / ulp x) := by exact_mod_cast lt_of_mul_lt_mul_right a2 p.le
  omega

/-- Between `x > 0`, rounded down, and the multiple of the unit above it lies no binary number. -/
theorem gap_above {x y : ℝ} (hx : 0 < x) (r : nearest x < x) (h : Binary y) (q : x ≤ y) : nearest x + ulp x ≤ y := by
  have p := ulp_pos x
  by_contra hy
  push Not at hy
  have y0 : 0 < y := hx.trans_le q
  obtain ⟨n, hn⟩ := h.mul_ulp (x := x) y0.ne' hx.ne' (by
    left; rw [abs_of_pos y0]
    have := log_le hx.ne'
    rw [abs_of_pos hx] at this ⊢
    linarith)
  rw [hn] at hy q
  have e1 : nearest x = roundHalfEven (x / ulp x) * ulp x := rfl
  rw [e1] at hy r
  have a1 : ((roundHalfEven (x / ulp x) : ℤ) : ℝ) * ulp x < n * ulp x := by linarith
  have a2 : (n : ℝ) * ulp x < ((roundHalfEven (x / ulp x) + 1 : ℤ) : ℝ) * ulp x := by push_cast; linarith
  have a3 : roundHalfEven (x / ulp x) < n := by exact_mod_cast lt_of_mul_lt_mul_right a1 p.le
  have a4 : n < roundHalfEven (x / ulp x) + 1 := by exact_mod_cast lt_of_mul_lt_mul_right a2 p.le
  omega

/-- No binary number is nearer. -/
theorem nearest_best {x y : ℝ} (h : Binary y) : |nearest x - x| ≤ |y - x| := by
  have key : ∀ {x y : ℝ}, 0 < x → Binary y → |nearest x - x| ≤ |y - x| := by
    clear h
    intro x y hx h
    have hh := nearest_half x
    rcases le_total y x with q | q
    · have m := nearest_mono q
      rw [h.nearest] at m
      rcases le_or_gt (nearest x) x with r | r
      · rw [abs_of_nonpos (show nearest x - x ≤ 0 by linarith), abs_of_nonpos (show y - x ≤ 0 by linarith)]; linarith
      have g := gap_below hx r h q
      rw [abs_of_pos (show 0 < nearest x - x by linarith)] at hh ⊢
      rw [abs_of_nonpos (show y - x ≤ 0 by linarith)]
      linarith
    · have m := nearest_mono q
      rw [h.nearest] at m
      rcases le_or_gt x (nearest x) with r | r
      · rw [abs_of_nonneg (show 0 ≤ nearest x - x by linarith), abs_of_nonneg (show 0 ≤ y - x by linarith)]; linarith
      have g := gap_above hx r h q
      rw [abs_of_neg (show nearest x - x < 0 by linarith)] at hh ⊢
      rw [abs_of_nonneg (show 0 ≤ y - x by linarith)]
      linarith
  rcases lt_trichotomy x 0 with hx | hx | hx
  · have := key (neg_pos.2 hx) h.neg
    rw [nearest_odd] at this
    rw [show nearest x - x = -(-nearest x - -x) by ring, abs_neg, show y - x = -(-y - -x) by ring, abs_neg]
    exact this
  · subst hx; rw [nearest_zero]; simp
  · exact key hx h

theorem round_tie {t : ℝ} (h : t - ⌊t⌋ = 1 / 2) : Even (roundHalfEven t) := by
  unfold roundHalfEven
  rw [if_neg (by rw [h]; exact lt_irrefl _), if_neg (by rw [h]; exact lt_irrefl _)]
  split_ifs with c
  · exact c
  · exact (Int.not_even_iff_odd.1 c).add_one

/-- Of two nearest binary numbers, one unit apart, the even one is chosen. -/
theorem nearest_tie {x y : ℝ} (h : Binary y) (hne : y ≠ nearest x) (he : |y - x| = |nearest x - x|) :
    ∃ n k : ℤ, Even n ∧ |n| ≤ 2 ^ 53 ∧ -1074 ≤ k ∧ nearest x = n * 2 ^ k ∧ |y - nearest x| = 2 ^ k := by
  have key : ∀ {x y : ℝ}, 0 < x → Binary y → y ≠ nearest x → |y - x| = |nearest x - x| → Even (roundHalfEven (x / ulp x)) ∧ |y - nearest x| = ulp x := by
    clear h hne he
    intro x y hx h hne he
    have hh := nearest_half x
    have p := ulp_pos x
    have tie : x / ulp x - ⌊x / ulp x⌋ = 1 / 2 → Even (roundHalfEven (x / ulp x)) := round_tie
    have e1 : nearest x = roundHalfEven (x / ulp x) * ulp x := rfl
    have other : y - x = -(nearest x - x) := by
      rcases abs_eq_abs.1 he with e | e
      · exact absurd (by linarith) hne
      · exact e
    have ne0 : nearest x ≠ x := by
      intro e
      apply hne
      rw [e] at other ⊢
      linarith
    rcases lt_or_gt_of_ne ne0 with r | r
    · have g := gap_above hx r h (by linarith)
      rw [abs_of_neg (show nearest x - x < 0 by linarith)] at hh
      have ex : x = nearest x + ulp x / 2 := by linarith
      refine ⟨tie ?_, ?_⟩
      · have q : x / ulp x = roundHalfEven (x / ulp x) + 1 / 2 := by
          rw [div_eq_iff p.ne', add_mul, ← e1]; linarith
        have f : ⌊x / ulp x⌋ = roundHalfEven (x / ulp x) := by
          rw [Int.floor_eq_iff]; constructor <;> linarith
        rw [f]; linarith
      · rw [abs_of_nonneg (by linarith)]; linarith
    · have g := gap_below hx r h (by linarith)
      rw [abs_of_pos (show 0 < nearest x - x by linarith)] at hh
      have ex : x = nearest x - ulp x / 2 := by linarith
      refine ⟨tie ?_, ?_⟩
      · have q : x / ulp x = roundHalfEven (x / ulp x) - 1 / 2 := by
          rw [div_eq_iff p.ne', sub_mul, ← e1]; linarith
        have f : ⌊x / ulp x⌋ = roundHalfEven (x / ulp x) - 1 := by
          rw [Int.floor_eq_iff]; push_cast; constructor <;> linarith
        rw [f]; push_cast; linarith
      · rw [abs_of_nonpos (by linarith)]; linarith
  have fin : ∀ {x y : ℝ}, Even (roundHalfEven (x / ulp x)) ∧ |y - nearest x| = ulp x →
      ∃ n k : ℤ, Even n ∧ |n| ≤ 2 ^ 53 ∧ -1074 ≤ k ∧ nearest x = n * 2 ^ k ∧ |y - nearest x| = 2 ^ k := by
    intro x y ⟨h1, h2⟩
    obtain ⟨b1, b2⟩ := nearest_digits x
    exact ⟨_, _, h1, b1, b2, rfl, h2⟩
  rcases lt_trichotomy x 0 with hx | hx | hx
  · have := key (x := -x) (y := -y) (neg_pos.2 hx) h.neg (by rw [nearest_odd]; intro e; exact hne (neg_injective e)) (by
      rw [nearest_odd, show -y - -x = -(y - x) by ring, abs_neg, he, show -nearest x - -x = -(nearest x - x) by ring, abs_neg])
    apply fin
    rw [ulp_neg, neg_div, round_neg, nearest_odd, show -y - -nearest x = -(y - nearest x) by ring, abs_neg, even_neg] at this
    exact this
  · subst hx
    exfalso
    rw [nearest_zero, sub_self, abs_zero, sub_zero, abs_eq_zero] at he
    exact hne (by rw [he, nearest_zero])
  · exact fin (key hx h hne he)

theorem abs_nearest (x : ℝ) : |nearest x| = nearest |x| := by
  rcases le_total 0 x with h | h
  · rw [abs_of_nonneg h, abs_of_nonneg (nearest_nonneg h)]
  · rw [abs_of_nonpos h, abs_of_nonpos (nearest_nonpos h), nearest_odd]

theorem binary_two_pow (k : ℕ) : Binary (2 ^ k) := ⟨1, k, by norm_num, by omega, by rw [zpow_natCast]; push_cast; ring⟩

/-- No overflow below a power of two. -/
theorem nearest_lt {x : ℝ} {k : ℕ} (hk : k < 1024) (h : |x| ≤ 2 ^ k) : |nearest x| < 2 ^ 1024 := by
  rw [abs_nearest]
  refine (nearest_mono h).trans_lt ?_
  rw [(binary_two_pow k).nearest]
  exact pow_lt_pow_right₀ (by norm_num) hk

theorem nearest_big {x : ℝ} (h : |x| ≤ roundBig) : |nearest x| < 2 ^ 1024 := nearest_lt (k := 1000) (by norm_num) (by unfold roundBig at h; exact h)

theorem nearest_close' (x : ℝ) : |nearest x - x| ≤ roundEps * |x| + roundTiny := by
  refine (nearest_close x).trans (add_le_add (mul_le_mul_of_nonneg_right ?_ (abs_nonneg x)) ?_)
  · unfold roundEps; exact pow_le_pow_of_le_one (by norm_num) (by norm_num) (by norm_num)
  · unfold roundTiny; exact pow_le_pow_of_le_one (by norm_num) (by norm_num) (by norm_num)

namespace Spec.Double

theorem val_num_true (m) : (num true m).val = -m.1 := rfl
theorem val_num_false (m) : (num false m).val = m.1 := rfl

theorem abs_val (s : Bool) (m) : |(num s m).val| = m.1 := by
  cases s
  · exact abs_of_nonneg m.2.1
  · rw [val_num_true, abs_neg]; exact abs_of_nonneg m.2.1

theorem val_eq_zero {s : Bool} {m} : (num s m).val = 0 ↔ m.1 = 0 := by
  rw [← abs_eq_zero, abs_val]

theorem Finite.num {a : Double} (h : a.Finite) : ∃ s m, a = .num s m := by
  match a, h with
  | .num s m, _ => exact ⟨s, m, rfl⟩

theorem add_num (s t : Bool) (m n) : (num s m).add (num t n) = result (s && t) ((num s m).val + (num t n).val) := rfl
theorem mul_num (s t : Bool) (m n) : (num s m).mul (num t n) = result (xor s t) ((num s m).val * (num t n).val) := rfl
theorem div_num (s t : Bool) (m n) (h : n.1 ≠ 0) : (num s m).div (num t n) = result (xor s t) ((num s m).val / (num t n).val) := by
  unfold div; exact if_neg h

theorem result_ok {x : ℝ} (z : Bool) (h : |nearest x| < 2 ^ 1024) : (result z x).Finite ∧ (result z x).val = nearest x := by
  unfold result
  rw [dif_pos ⟨abs_nonneg _, (nearest_binary x).abs, h⟩]
  refine ⟨trivial, ?_⟩
  rcases lt_trichotomy x 0 with c | c | c
  · rw [if_neg c.ne, decide_eq_true c, val_num_true]
    show -|nearest x| = _
    rw [abs_of_nonpos (nearest_nonpos c.le), neg_neg]
  · subst c
    rw [if_pos rfl]
    refine Eq.trans ?_ nearest_zero.symm
    rw [val_eq_zero]
    show |nearest 0| = 0
    rw [nearest_zero, abs_zero]
  · rw [if_neg c.ne', decide_eq_false (not_lt.2 c.le), val_num_false]
    exact abs_of_nonneg (nearest_nonneg c.le)

theorem result_big {x : ℝ} (z : Bool) (h : |x| ≤ roundBig) : (result z x).Finite ∧ (result z x).val = nearest x := result_ok z (nearest_big h)

theorem val_binary {a : Double} (h : a.Finite) : Binary a.val := by
  match a, h with
  | num true m, _ => exact m.2.2.1.neg
  | num false m, _ => exact m.2.2.1

theorem val_lt {a : Double} (h : a.Finite) : |a.val| < 2 ^ 1024 := by
  match a, h with
  | num s m, _ => rw [abs_val]; exact m.2.2.2

theorem ext_finite {a : Double} (h : a.Finite) : a.ext = some (a.val : EReal) := by
  match a, h with
  | num _ _, _ => rfl

theorem neg_ok {a : Double} (h : a.Finite) : a.neg.Finite ∧ a.neg.val = -a.val := by
  match a, h with
  | num true m, _ => exact ⟨trivial, (neg_neg _).symm⟩
  | num false m, _ => exact ⟨trivial, rfl⟩

theorem abs_ok {a : Double} (h : a.Finite) : a.abs.Finite ∧ a.abs.val = |a.val| := by
  match a, h with
  | num s m, _ => exact ⟨trivial, (abs_val s m).symm⟩

theorem add_ok {a b : Double} (ha : a.Finite) (hb : b.Finite) (h : |a.val + b.val| ≤ roundBig) :
    (a.add b).Finite ∧ (a.add b).val = nearest (a.val + b.val) := by
  obtain ⟨s, m, rfl⟩ := ha.num
  obtain ⟨t, n, rfl⟩ := hb.num
  rw [add_num]
  exact result_big _ h

theorem mul_ok {a b : Double} (ha : a.Finite) (hb : b.Finite) (h : |a.val * b.val| ≤ roundBig) :
    (a.mul b).Finite ∧ (a.mul b).val = nearest (a.val * b.val) := by
  obtain ⟨s, m, rfl⟩ := ha.num
  obtain ⟨t, n, rfl⟩ := hb.num
  rw [mul_num]
  exact result_big _ h

theorem div_ok {a b : Double} (ha : a.Finite) (hb : b.Finite) (h0 : b.val ≠ 0) (h : |a.val / b.val| ≤ roundBig) :
    (a.div b).Finite ∧ (a.div b).val = nearest (a.val / b.val) := by
  obtain ⟨s, m, rfl⟩ := ha.num
  obtain ⟨t, n, rfl⟩ := hb.num
  rw [div_num _ _ _ _ fun e => h0 (val_eq_zero.2 e)]
  exact result_big _ h

theorem sqrt_ok {a : Double} (ha : a.Finite) (h0 : 0 ≤ a.val) : a.sqrt.Finite ∧ a.sqrt.val = nearest (√a.val) := by
  match a, ha with
  | num s m, _ =>
    show (if m.1 = 0 then num s m else if s then nan else result false (√m.1)).Finite ∧ (if m.1 = 0 then num s m else if s then nan else result false (√m.1)).val = _
    by_cases c : m.1 = 0
    · rw [if_pos c]
      have := (val_eq_zero (s := s)).2 c
      exact ⟨trivial, by rw [this, Real.sqrt_zero, nearest_zero]⟩
    · rw [if_neg c]
      cases s
      · have hm := m.2.2.2
        rw [if_neg (by simp)]
        refine result_ok _ (nearest_lt (k := 512) (by norm_num) ?_)
        rw [abs_of_nonneg (Real.sqrt_nonneg _)]
        refine (Real.sqrt_le_sqrt hm.le).trans (le_of_eq ?_)
        rw [show (2 : ℝ) ^ 1024 = (2 ^ 512) ^ 2 by rw [← pow_mul]]
        exact Real.sqrt_sq (by positivity)
      · exfalso
        rw [val_num_true] at h0
        exact c (le_antisymm (by linarith) m.2.1)

theorem lt_ok {a b : Double} (ha : a.Finite) (hb : b.Finite) : a.lt b ↔ a.val < b.val := by
  unfold lt
  rw [ext_finite ha, ext_finite hb]
  constructor
  · rintro ⟨x, y, hx, hy, h⟩
    obtain rfl := Option.some.inj hx
    obtain rfl := Option.some.inj hy
    exact EReal.coe_lt_coe_iff.1 h
  · intro h
    exact ⟨_, _, rfl, rfl, EReal.coe_lt_coe_iff.2 h⟩

theorem le_ok {a b : Double} (ha : a.Finite) (hb : b.Finite) : a.le b ↔ a.val ≤ b.val := by
  unfold le
  rw [ext_finite ha, ext_finite hb]
  constructor
  · rintro ⟨x, y, hx, hy, h⟩
    obtain rfl := Option.some.inj hx
    obtain rfl := Option.some.inj hy
    exact EReal.coe_le_coe_iff.1 h
  · intro h
    exact ⟨_, _, rfl, rfl, EReal.coe_le_coe_iff.2 h⟩

theorem round4_ok {a : Double} (ha : a.Finite) (h : |a.val| ≤ 2 ^ 20) :
    a.round4.Finite ∧ a.round4.val = nearest ((roundHalfEven (a.val * 10000) : ℝ) / 10000) := by
  match a, ha with
  | num s m, _ =>
    refine result_ok s (nearest_lt (k := 21) (by norm_num) ?_)
    have e := round4_near (num s m).val
    rw [round4_real] at e
    obtain ⟨y, ey⟩ : ∃ y, y = (num s m).val := ⟨_, rfl⟩
    rw [← ey] at e h ⊢
    rw [abs_le] at *
    norm_num at *
    constructor <;> linarith

end Spec.Double

/-- Doubles satisfy the laws of rounding, whatever library of accurate functions they come with. -/
noncomputable def ieee {M : Libm} (h : M.Accurate) : Rounding (DoubleOf M) where
  fin := Double.Finite
  val := Double.val
  rnd := nearest
  mono := nearest_mono
  odd := nearest_odd
  close x _ := nearest_close' x
  exact n k hn hk _ := Binary.nearest ⟨n, k, hn, by omega, rfl⟩
  val_rnd a ha := (Double.val_binary ha).nearest
  lit _ _ _ hb := Double.result_big _ hb
  ofInt _ hb := Double.result_big _ hb
  add _ _ ha hb hr := Double.add_ok ha hb hr
  sub a b ha hb hr := by
    have e : a.val - b.val = a.val + (Double.neg b).val := by rw [(Double.neg_ok hb).2, sub_eq_add_neg]
    have := Double.add_ok ha (Double.neg_ok hb).1 (by rw [← e]; exact hr)
    rw [← e] at this
    exact this
  mul _ _ ha hb hr := Double.mul_ok ha hb hr
  div _ _ ha hb h0 hr := Double.div_ok ha hb h0 hr
  neg _ ha := Double.neg_ok ha
  abs _ ha := Double.abs_ok ha
  lt _ _ ha hb := Double.lt_ok ha hb
  le _ _ ha hb := Double.le_ok ha hb
  sqrt _ ha h0 := Double.sqrt_ok ha h0
  exp := h.exp
  log := h.log
  rpow := h.pow
  floor _ _ := rfl
  round4 a ha hb := by
    obtain ⟨h1, h2⟩ := Double.round4_ok ha hb
    refine ⟨h1, _, h2, ?_⟩
    have e := round4_near (Double.val a)
    rw [round4_real] at e
    exact e.trans (le_add_of_nonneg_right (mul_nonneg roundEps_pos.le (by positivity)))
  round4_mono a b ha hb h1 h2 hl := by
    rw [show PyNum.round4 a = Double.round4 a from rfl, show PyNum.round4 b = Double.round4 b from rfl, (Double.round4_ok ha h1).2, (Double.round4_ok hb h2).2]
    exact nearest_mono (by
      have := round4_mono hl
      rwa [round4_real, round4_real] at this)

/-- The library that always returns the nearest double. -/
noncomputable def bestLibm : Libm where
  exp a := Double.result false (Real.exp a.val)
  log a := Double.result false (Real.log a.val)
  sin a := Double.result false (Real.sin a.val)
  cos a := Double.result false (Real.cos a.val)
  pow a b := Double.result false (a.val ^ b.val)

theorem bestLibm_accurate : bestLibm.Accurate where
  exp a _ h := by
    have hb : |Real.exp a.val| ≤ roundBig := by rwa [abs_of_pos (Real.exp_pos _)]
    obtain ⟨h1, h2⟩ := Double.result_big false hb
    refine ⟨h1, ?_⟩
    show |(Double.result false (Real.exp a.val)).val - _| ≤ _
    rw [h2]
    exact (nearest_close' _).trans (by rw [abs_of_pos (Real.exp_pos _)])
  log a ha h0 := by
    have hb : |Real.log a.val| ≤ 2 ^ 11 := by
      have l2 : Real.log 2 ≤ 1 := by have := Real.log_le_sub_one_of_pos (show (0 : ℝ) < 2 by norm_num); linarith
      have l0 : 0 ≤ Real.log 2 := Real.log_nonneg (by norm_num)
      have up : Real.log a.val ≤ 1024 * Real.log 2 := by
        have := Real.log_le_log h0 ((le_abs_self _).trans (Double.val_lt ha).le)
        rwa [Real.log_pow] at this
      have lo : -1074 * Real.log 2 ≤ Real.log a.val := by
        obtain ⟨n, k, -, hk, e⟩ := Double.val_binary ha
        have kp : (0 : ℝ) < 2 ^ k := by positivity
        have n1 : 1 ≤ n := by
          have : (0 : ℝ) < n := pos_of_mul_pos_left (e ▸ h0) kp.le
          exact_mod_cast this
        have n1' : (1 : ℝ) ≤ n := by exact_mod_cast n1
        have : (2 : ℝ) ^ (-1074 : ℤ) ≤ a.val := by
          rw [e]
          have := zpow_le_zpow_right₀ (show (1 : ℝ) ≤ 2 by norm_num) hk
          nlinarith
        have := Real.log_le_log (by positivity) this
        rw [Real.log_zpow] at this
        exact_mod_cast this
      rw [abs_le]
      constructor <;> norm_num <;> nlinarith
    obtain ⟨h1, h2⟩ := Double.result_ok false (nearest_lt (k := 11) (by norm_num) hb)
    refine ⟨h1, ?_⟩
    show |(Double.result false (Real.log a.val)).val - _| ≤ _
    rw [h2]
    exact nearest_close' _
  pow a b _ _ h0 h := by
    have hp : 0 < a.val ^ b.val := Real.rpow_pos_of_pos h0 _
    obtain ⟨h1, h2⟩ := Double.result_big false (by rwa [abs_of_pos hp] : |a.val ^ b.val| ≤ roundBig)
    refine ⟨h1, ?_⟩
    show |(Double.result false (a.val ^ b.val)).val - _| ≤ _
    rw [h2]
    exact (nearest_close' _).trans (by rw [abs_of_pos hp])

end Itm
