import Verif.Spec.Rounding
import Verif.Lemmas.Round
import Mathlib.Data.Int.Log
import Mathlib.Tactic.Push

/-! A model of `Spec.Rounding` other than the reals: binary numbers of 53 digits, rounded towards zero. -/

namespace Itm
open Itm.Spec

/-- The distance of neighbouring 53-digit numbers around `x`. -/
noncomputable def chopUnit (x : ℝ) : ℝ := 2 ^ (Int.log 2 |x| - 52)

/-- `|x|` rounded down to 53 binary digits. -/
noncomputable def chopAbs (x : ℝ) : ℝ := ⌊|x| / chopUnit x⌋ * chopUnit x

/-- `x` rounded towards zero to 53 binary digits. -/
noncomputable def chop (x : ℝ) : ℝ := if 0 ≤ x then chopAbs x else -chopAbs x

theorem chopUnit_pos (x : ℝ) : 0 < chopUnit x := by unfold chopUnit; positivity

theorem chopUnit_neg (x : ℝ) : chopUnit (-x) = chopUnit x := by unfold chopUnit; rw [abs_neg]
theorem chopAbs_neg (x : ℝ) : chopAbs (-x) = chopAbs x := by unfold chopAbs; rw [abs_neg, chopUnit_neg]

theorem chopAbs_zero : chopAbs 0 = 0 := by unfold chopAbs; simp

theorem chopAbs_nonneg (x : ℝ) : 0 ≤ chopAbs x := by
  unfold chopAbs
  have := chopUnit_pos x
  have h : 0 ≤ ⌊|x| / chopUnit x⌋ := Int.floor_nonneg.2 (by positivity)
  have : (0 : ℝ) ≤ ⌊|x| / chopUnit x⌋ := by exact_mod_cast h
  positivity

theorem chop_odd (x : ℝ) : chop (-x) = -chop x := by
  unfold chop
  rw [chopAbs_neg]
  rcases lt_trichotomy x 0 with h | h | h
  · rw [if_pos (by linarith), if_neg (by linarith), neg_neg]
  · subst h; simp [chopAbs_zero]
  · rw [if_neg (by linarith), if_pos h.le]

theorem chopAbs_le (x : ℝ) : chopAbs x ≤ |x| := by
  unfold chopAbs
  have h := chopUnit_pos x
  calc (⌊|x| / chopUnit x⌋ : ℝ) * chopUnit x ≤ |x| / chopUnit x * chopUnit x :=
        mul_le_mul_of_nonneg_right (Int.floor_le _) h.le
    _ = |x| := div_mul_cancel₀ _ h.ne'

theorem chopAbs_gt (x : ℝ) : |x| - chopUnit x < chopAbs x := by
  unfold chopAbs
  have h := chopUnit_pos x
  have h1 := Int.lt_floor_add_one (|x| / chopUnit x)
  have h2 := (mul_lt_mul_iff_of_pos_right h).2 h1
  rw [div_mul_cancel₀ _ h.ne'] at h2
  linarith

theorem log_le {x : ℝ} (hx : x ≠ 0) : (2 : ℝ) ^ Int.log 2 |x| ≤ |x| := by
  have := Int.zpow_log_le_self (b := 2) (r := |x|) (by norm_num) (abs_pos.2 hx)
  exact_mod_cast this

theorem lt_log (x : ℝ) : |x| < (2 : ℝ) ^ (Int.log 2 |x| + 1) := by
  have := Int.lt_zpow_succ_log_self (b := 2) (by norm_num) |x|
  exact_mod_cast this

/-- The leading digit is kept. -/
theorem chopAbs_log {x : ℝ} (hx : x ≠ 0) : (2 : ℝ) ^ Int.log 2 |x| ≤ chopAbs x := by
  have h := chopUnit_pos x
  have h1 : ((2 ^ 52 : ℤ) : ℝ) ≤ |x| / chopUnit x := by
    rw [le_div_iff₀ h]
    refine le_trans (le_of_eq ?_) (log_le hx)
    unfold chopUnit
    rw [zpow_sub₀ (by norm_num)]
    push_cast
    field_simp
    norm_num
  have h2 : ((2 ^ 52 : ℤ) : ℝ) ≤ ⌊|x| / chopUnit x⌋ := by exact_mod_cast Int.le_floor.2 h1
  calc (2 : ℝ) ^ Int.log 2 |x| = ((2 ^ 52 : ℤ) : ℝ) * chopUnit x := by
        unfold chopUnit
        rw [zpow_sub₀ (by norm_num)]
        push_cast
        field_simp
        norm_num
    _ ≤ chopAbs x := mul_le_mul_of_nonneg_right h2 h.le

theorem chopUnit_le {x : ℝ} (hx : x ≠ 0) : chopUnit x ≤ 2⁻¹ ^ 52 * |x| := by
  unfold chopUnit
  rw [zpow_sub₀ (by norm_num), div_eq_inv_mul]
  refine mul_le_mul (by norm_num) (log_le hx) (by positivity) (by norm_num)

theorem chop_abs (x : ℝ) : |chop x| = chopAbs x := by
  unfold chop
  have := chopAbs_nonneg x
  split_ifs
  · exact abs_of_nonneg this
  · rw [abs_neg]; exact abs_of_nonneg this

theorem chop_close (x : ℝ) : |chop x - x| ≤ 2⁻¹ ^ 52 * |x| := by
  by_cases hx : x = 0
  · subst hx; simp [chop, chopAbs_zero]
  have h1 := chopAbs_le x
  have h2 := chopAbs_gt x
  have h3 := chopUnit_le hx
  unfold chop
  split_ifs with h
  · rw [abs_of_nonneg h] at *
    rw [abs_le]; constructor <;> linarith
  · push Not at h
    rw [abs_of_neg h] at *
    rw [abs_le]; constructor <;> linarith

theorem chopAbs_mono {x y : ℝ} (h : |x| ≤ |y|) : chopAbs x ≤ chopAbs y := by
  by_cases hx : x = 0
  · subst hx; rw [chopAbs_zero]; exact chopAbs_nonneg y
  have hy : y ≠ 0 := by
    intro e; subst e; rw [abs_zero] at h; exact hx (abs_nonpos_iff.1 h)
  have hl : Int.log 2 |x| ≤ Int.log 2 |y| := Int.log_mono_right (abs_pos.2 hx) h
  rcases eq_or_lt_of_le hl with e | hlt
  · have hu : chopUnit x = chopUnit y := by unfold chopUnit; rw [e]
    unfold chopAbs
    rw [hu]
    have hp := chopUnit_pos y
    refine mul_le_mul_of_nonneg_right ?_ hp.le
    exact_mod_cast Int.floor_le_floor (div_le_div_of_nonneg_right h hp.le)
  · calc chopAbs x ≤ |x| := chopAbs_le x
      _ ≤ (2 : ℝ) ^ (Int.log 2 |x| + 1) := (lt_log x).le
      _ ≤ (2 : ℝ) ^ Int.log 2 |y| := zpow_le_zpow_right₀ (by norm_num) (by omega)
      _ ≤ chopAbs y := chopAbs_log hy

theorem chop_mono : Monotone chop := by
  intro x y h
  unfold chop
  split_ifs with h1 h2 h2
  · exact chopAbs_mono (by rw [abs_of_nonneg h1, abs_of_nonneg h2]; exact h)
  · exact absurd (h1.trans h) h2
  · have := chopAbs_nonneg x; have := chopAbs_nonneg y; linarith
  · push Not at h1 h2
    exact neg_le_neg (chopAbs_mono (by rw [abs_of_neg h1, abs_of_neg h2]; linarith))

/-- A multiple of the unit is kept. -/
theorem chop_of_mul {x : ℝ} (n : ℤ) (h : |x| = n * chopUnit x) : chop x = x := by
  have e : chopAbs x = |x| := by
    unfold chopAbs
    rw [h, mul_div_assoc, div_self (chopUnit_pos x).ne', mul_one, Int.floor_intCast]
  unfold chop
  rw [e]
  split_ifs with h0
  · exact abs_of_nonneg h0
  · push Not at h0; rw [abs_of_neg h0, neg_neg]

theorem chop_chop (x : ℝ) : chop (chop x) = chop x := by
  by_cases hx : x = 0
  · subst hx; simp [chop, chopAbs_zero]
  apply chop_of_mul ⌊|x| / chopUnit x⌋
  rw [chop_abs]
  have hu : chopUnit (chop x) = chopUnit x := by
    unfold chopUnit
    rw [chop_abs]
    have : Int.log 2 (chopAbs x) = Int.log 2 |x| := by
      have h1 := chopAbs_log hx
      have hpos : 0 < chopAbs x := lt_of_lt_of_le (by positivity) h1
      have h2 : chopAbs x < (2 : ℝ) ^ (Int.log 2 |x| + 1) := lt_of_le_of_lt (chopAbs_le x) (lt_log x)
      apply le_antisymm
      · have : Int.log 2 (chopAbs x) < Int.log 2 |x| + 1 :=
          (Int.lt_zpow_iff_log_lt (b := 2) (by norm_num) hpos).1 (by exact_mod_cast h2)
        omega
      · exact (Int.zpow_le_iff_le_log (b := 2) (by norm_num) hpos).1 (by exact_mod_cast h1)
    rw [this]
  rw [hu]; rfl

theorem chop_exact (n k : ℤ) (hn : |n| ≤ 2 ^ 53) : chop (n * 2 ^ k) = n * 2 ^ k := by
  by_cases hn0 : n = 0
  · subst hn0; simp [chop, chopAbs_zero]
  obtain ⟨x, hx⟩ : ∃ x : ℝ, x = n * 2 ^ k := ⟨_, rfl⟩
  rw [← hx]
  have hx0 : x ≠ 0 := by rw [hx]; have : (n : ℝ) ≠ 0 := by exact_mod_cast hn0
                         positivity
  have hk : (0 : ℝ) < 2 ^ k := by positivity
  have hax : |x| = |(n : ℝ)| * 2 ^ k := by rw [hx, abs_mul, abs_of_pos hk]
  have hnr : |(n : ℝ)| ≤ 2 ^ 53 := by exact_mod_cast hn
  rcases eq_or_lt_of_le hn with e | hlt
  · -- a power of two
    have e' : |(n : ℝ)| = 2 ^ 53 := by exact_mod_cast e
    have hax' : |x| = (2 : ℝ) ^ (53 + k) := by
      rw [hax, e', zpow_add₀ (by norm_num)]; norm_cast
    have hl : Int.log 2 |x| = 53 + k := by
      rw [hax']
      have := Int.log_zpow (R := ℝ) (b := 2) (by norm_num) (53 + k)
      exact_mod_cast this
    refine chop_of_mul (2 ^ 52) ?_
    unfold chopUnit
    rw [hl, hax', show (53 + k : ℤ) = 52 + (53 + k - 52) by ring, zpow_add₀ (by norm_num)]
    push_cast
    rw [show (52 + (53 + k - 52) - 52 : ℤ) = 53 + k - 52 by ring]
    norm_cast
  · have hlr : |(n : ℝ)| < 2 ^ 53 := by exact_mod_cast hlt
    have hl : Int.log 2 |x| ≤ 52 + k := by
      have : Int.log 2 |x| < 53 + k := by
        refine (Int.lt_zpow_iff_log_lt (b := 2) (by norm_num) (abs_pos.2 hx0)).1 ?_
        rw [hax]
        push_cast
        rw [zpow_add₀ (by norm_num)]
        exact mul_lt_mul_of_pos_right (by exact_mod_cast hlr) hk
      omega
    obtain ⟨j, hj⟩ : ∃ j : ℕ, (52 + k) - Int.log 2 |x| = j := ⟨((52 + k) - Int.log 2 |x|).toNat, by omega⟩
    refine chop_of_mul (|n| * 2 ^ j) ?_
    unfold chopUnit
    rw [show Int.log 2 |x| - 52 = k - j by omega, hax]
    push_cast
    rw [zpow_sub₀ (by norm_num), zpow_natCast]
    field_simp

/-- The reals as carrier of chopped arithmetic. -/
structure Chop where
  val : ℝ

open Classical in
noncomputable instance instPyNumChop : PyNum Chop where
  add a b := ⟨chop (a.val + b.val)⟩
  sub a b := ⟨chop (a.val - b.val)⟩
  mul a b := ⟨chop (a.val * b.val)⟩
  div a b := ⟨chop (a.val / b.val)⟩
  neg a := ⟨-a.val⟩
  lt a b := a.val < b.val
  le a b := a.val ≤ b.val
  ofScientific m s e := ⟨chop (OfScientific.ofScientific m s e)⟩
  decLt := fun _ _ => Classical.dec _
  decLe := fun _ _ => Classical.dec _
  ofInt n := ⟨chop n⟩
  exp a := ⟨chop (Real.exp a.val)⟩
  log a := ⟨chop (Real.log a.val)⟩
  sqrt a := ⟨chop (√a.val)⟩
  sin a := ⟨chop (Real.sin a.val)⟩
  cos a := ⟨chop (Real.cos a.val)⟩
  rpow a b := ⟨chop (a.val ^ b.val)⟩
  abs a := ⟨|a.val|⟩
  floor a := ⌊a.val⌋
  roundInt a := roundHalfEven a.val
  round4 a := ⟨chop ((roundHalfEven (a.val * 10000) : ℝ) / 10000)⟩

theorem roundEps_pos : 0 < roundEps := by unfold roundEps; positivity
theorem roundTiny_pos : 0 < roundTiny := by unfold roundTiny; positivity

theorem chop_close' (x : ℝ) : |chop x - x| ≤ roundEps * |x| + roundTiny := by
  have h := chop_close x
  have h1 : (2⁻¹ : ℝ) ^ 52 * |x| ≤ roundEps * |x| := mul_le_mul_of_nonneg_right (by norm_num [roundEps]) (abs_nonneg x)
  have h2 := roundTiny_pos
  linarith

/-- Chopped binary numbers of 53 digits satisfy the laws. -/
noncomputable def chopRounding : Rounding Chop where
  fin a := chop a.val = a.val
  val := Chop.val
  rnd := chop
  mono := chop_mono
  odd := chop_odd
  close x _ := chop_close' x
  exact n k hn _ _ := chop_exact n k hn
  val_rnd _ h := h
  lit _ _ _ _ := ⟨chop_chop _, rfl⟩
  ofInt _ _ := ⟨chop_chop _, rfl⟩
  add _ _ _ _ _ := ⟨chop_chop _, rfl⟩
  sub _ _ _ _ _ := ⟨chop_chop _, rfl⟩
  mul _ _ _ _ _ := ⟨chop_chop _, rfl⟩
  div _ _ _ _ _ _ := ⟨chop_chop _, rfl⟩
  neg a h := ⟨by
    show chop (-a.val) = -a.val
    rw [chop_odd, h], rfl⟩
  abs a h := ⟨by
    show chop |a.val| = |a.val|
    rcases abs_choice a.val with e | e <;> rw [e]
    · exact h
    · rw [chop_odd, h], rfl⟩
  lt _ _ _ _ := Iff.rfl
  le _ _ _ _ := Iff.rfl
  sqrt _ _ _ := ⟨chop_chop _, rfl⟩
  exp a _ _ := ⟨chop_chop _, (chop_close' (Real.exp a.val)).trans (by rw [abs_of_pos (Real.exp_pos _)])⟩
  log a _ _ := ⟨chop_chop _, chop_close' (Real.log a.val)⟩
  rpow a b _ _ h _ := ⟨chop_chop _, (chop_close' (a.val ^ b.val)).trans (by rw [abs_of_pos (Real.rpow_pos_of_pos h _)])⟩
  floor _ _ := rfl
  round4 a _ _ := ⟨chop_chop _, roundHalfEven (a.val * 10000), rfl, by
    have h := abs_round_sub_le (a.val * 10000)
    have e : (roundHalfEven (a.val * 10000) : ℝ) / 10000 - a.val = (roundHalfEven (a.val * 10000) - a.val * 10000) / 10000 := by ring
    have h2 : 0 ≤ roundEps * (1 + |a.val|) := mul_nonneg roundEps_pos.le (by positivity)
    rw [e, abs_div, abs_of_pos (by norm_num : (0 : ℝ) < 10000), div_le_iff₀ (by norm_num)]
    norm_num at h h2 ⊢
    linarith⟩
  round4_mono a b _ _ _ _ h := chop_mono (by
    have : roundHalfEven (a.val * 10000) ≤ roundHalfEven (b.val * 10000) := round_mono (by linarith)
    have : (roundHalfEven (a.val * 10000) : ℝ) ≤ roundHalfEven (b.val * 10000) := by exact_mod_cast this
    linarith)

/-- So do the reals. -/
noncomputable def realRounding : Rounding ℝ where
  fin _ := True
  val := id
  rnd := id
  mono _ _ h := h
  odd _ := rfl
  close x _ := by
    have := roundEps_pos; have := roundTiny_pos
    rw [id, sub_self, abs_zero]; positivity
  exact _ _ _ _ _ := rfl
  val_rnd _ _ := rfl
  lit _ _ _ _ := ⟨trivial, rfl⟩
  ofInt _ _ := ⟨trivial, rfl⟩
  add _ _ _ _ _ := ⟨trivial, rfl⟩
  sub _ _ _ _ _ := ⟨trivial, rfl⟩
  mul _ _ _ _ _ := ⟨trivial, rfl⟩
  div _ _ _ _ _ _ := ⟨trivial, rfl⟩
  neg _ _ := ⟨trivial, rfl⟩
  abs _ _ := ⟨trivial, rfl⟩
  lt _ _ _ _ := Iff.rfl
  le _ _ _ _ := Iff.rfl
  sqrt _ _ _ := ⟨trivial, rfl⟩
  exp a _ _ := ⟨trivial, by
    have := roundEps_pos; have := roundTiny_pos
    rw [rexp, id, id, sub_self, abs_zero]; have := Real.exp_pos a; positivity⟩
  log a _ _ := ⟨trivial, by
    have := roundEps_pos; have := roundTiny_pos
    rw [rlog, id, id, sub_self, abs_zero]; positivity⟩
  rpow a b _ _ h _ := ⟨trivial, by
    have := roundEps_pos; have := roundTiny_pos
    have : 0 < a ^ b := Real.rpow_pos_of_pos h _
    rw [rrpow, id, id, id, sub_self, abs_zero]; positivity⟩
  floor _ _ := rfl
  round4 a _ _ := ⟨trivial, roundHalfEven (a * 10000), rfl, by
    have h := abs_round_sub_le (a * 10000)
    have e : (roundHalfEven (a * 10000) : ℝ) / 10000 - a = (roundHalfEven (a * 10000) - a * 10000) / 10000 := by ring
    have h2 : 0 ≤ roundEps * (1 + |a|) := mul_nonneg roundEps_pos.le (by positivity)
    rw [id, e, abs_div, abs_of_pos (by norm_num : (0 : ℝ) < 10000), div_le_iff₀ (by norm_num)]
    norm_num at h h2 ⊢
    linarith⟩
  round4_mono a b _ _ _ _ h := round4_mono h

end Itm
