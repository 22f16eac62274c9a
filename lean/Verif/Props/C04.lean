import Verif.Lemmas.Qerfi

/-! C04, C05: `qerfi` answers element by element; each answer is an antitone, antisymmetric,
saturating deviate. -/

namespace Itm.Props
open Itm

theorem mapM_append {β γ : Type} (f : β → Py γ) (l1 l2 : List β) :
    (l1 ++ l2).mapM f = (do let a ← l1.mapM f; let b ← l2.mapM f; pure (a ++ b)) := by
  rw [List.mapM_append]

/-- Any arithmetic: the answer to a concatenation is the concatenation of the answers. -/
theorem C04_qerfi_append {α : Type} [PyNum α] (q1 q2 r1 r2 : List α)
    (h1 : qerfi q1 = .ok r1) (h2 : qerfi q2 = .ok r2) : qerfi (q1 ++ q2) = .ok (r1 ++ r2) := by
  unfold qerfi at *
  rw [mapM_append, h1, ok_bind, h2, ok_bind, pure_ok]

theorem mapM_ok_iff {β γ : Type} (f : β → Py γ) (l : List β) (r : List γ) :
    l.mapM f = .ok r ↔ List.Forall₂ (fun b c => f b = .ok c) l r := by
  induction l generalizing r with
  | nil => simp [List.mapM_nil, pure_ok, eq_comm]
  | cons b l ih =>
    rw [List.mapM_cons, bind_eq_ok]
    constructor
    · rintro ⟨c, hc, h⟩
      rw [bind_eq_ok] at h
      obtain ⟨cs, hcs, h⟩ := h
      rw [pure_ok, ok_inj] at h
      subst h
      exact List.Forall₂.cons hc ((ih cs).1 hcs)
    · intro h
      cases h with
      | cons hc hcs =>
        exact ⟨_, hc, by rw [(ih _).2 hcs, ok_bind, pure_ok]⟩

/-- Any arithmetic: a list of answers is, entry by entry, the answers to the single-entry calls. -/
theorem C04_qerfi_entries {α : Type} [PyNum α] (q r : List α) :
    qerfi q = .ok r ↔ List.Forall₂ (fun x y => qerfi [x] = .ok [y]) q r := by
  unfold qerfi
  rw [mapM_ok_iff]
  have : (fun b c : α => qerfi1 b = .ok c) = (fun x y : α => [x].mapM qerfi1 = .ok [y]) := by
    funext x y
    rw [mapM_ok_iff]
    simp
  rw [this]

/-- Exact reals: `qerfi` never raises and returns as many answers as entries. -/
theorem C04_qerfi_total (q : List ℝ) : ∃ r, qerfi q = .ok r ∧ r.length = q.length := by
  induction q with
  | nil => exact ⟨[], by simp [qerfi, List.mapM_nil, pure_ok], rfl⟩
  | cons x q ih =>
    obtain ⟨r, hr, hl⟩ := ih
    refine ⟨PyNum.round4 (if 0.5 - x < 0 then -devt (clipq x) else devt (clipq x)) :: r, ?_, by simp [hl]⟩
    unfold qerfi at *
    rw [List.mapM_cons, qerfi1_eq, ok_bind, hr, ok_bind, pure_ok]

theorem qerfi_single (q : ℝ) : qerfi [q] =
    .ok [PyNum.round4 (if 0.5 - q < 0 then -devt (clipq q) else devt (clipq q))] := by
  unfold qerfi
  rw [List.mapM_cons, qerfi1_eq, ok_bind, List.mapM_nil, pure_bind', pure_ok]

theorem round4_devt_nonneg {t : ℝ} (h0 : 0 < t) (h : t ≤ 1 / 2) : 0 ≤ PyNum.round4 (devt t) := by
  have h1 := devt_anti h0 h
  have h2 := round4_mono h1
  have h3 := devt_half
  rwa [round4_zero (lt_trans h3 (by norm_num))] at h2

/-- A higher level never has a larger deviate. -/
theorem C05_qerfi_antitone (q1 q2 v1 v2 : ℝ) (h : q1 ≤ q2)
    (h1 : qerfi [q1] = .ok [v1]) (h2 : qerfi [q2] = .ok [v2]) : v2 ≤ v1 := by
  rw [qerfi_single, ok_inj] at h1 h2
  simp only [List.cons.injEq, and_true] at h1 h2
  subst h1; subst h2
  have hh : (0.5 : ℝ) = 1 / 2 := by norm_num
  by_cases n1 : 0.5 - q1 < 0
  · have n2 : 0.5 - q2 < 0 := by linarith
    rw [if_pos n1, if_pos n2]
    apply round4_mono
    have : clipq q2 ≤ clipq q1 := by
      unfold clipq
      apply max_le_max _ (le_refl _)
      rw [abs_of_neg n1, abs_of_neg n2]; linarith
    linarith [devt_anti (clipq_pos q2) this]
  · by_cases n2 : 0.5 - q2 < 0
    · rw [if_neg n1, if_pos n2, round4_neg]
      have a := round4_devt_nonneg (clipq_pos q1) (clipq_le_half q1)
      have b := round4_devt_nonneg (clipq_pos q2) (clipq_le_half q2)
      linarith
    · rw [if_neg n1, if_neg n2]
      apply round4_mono
      push Not at n1 n2
      have : clipq q1 ≤ clipq q2 := by
        unfold clipq
        apply max_le_max _ (le_refl _)
        rw [abs_of_nonneg n1, abs_of_nonneg n2]; linarith
      exact devt_anti (clipq_pos q1) this

/-- The median level has deviate exactly 0. -/
theorem C05_qerfi_half : qerfi [(0.5 : ℝ)] = .ok [0] := by
  rw [qerfi_single, if_neg (by norm_num)]
  have : clipq 0.5 = 1 / 2 := by unfold clipq; norm_num
  rw [this, round4_zero (lt_trans devt_half (by norm_num))]

/-- Complementary levels have opposite deviates. -/
theorem C05_qerfi_antisymmetric (q v : ℝ) (h : qerfi [q] = .ok [v]) : qerfi [1 - q] = .ok [-v] := by
  by_cases hq : q = 0.5
  · subst hq
    rw [C05_qerfi_half] at h
    have hv : v = 0 := by simpa using h.symm
    have e : (1 : ℝ) - 0.5 = 0.5 := by norm_num
    rw [hv, e, C05_qerfi_half, neg_zero]
  · have hc : clipq (1 - q) = clipq q := by
      unfold clipq
      have : (0.5 : ℝ) - (1 - q) = -(0.5 - q) := by norm_num; ring
      rw [this, abs_neg]
    rw [qerfi_single] at h ⊢
    rw [hc]
    have hv := (List.cons.injEq _ _ _ _ ▸ ok_inj.1 h : _ ∧ _).1
    rw [← hv]
    rcases lt_or_gt_of_ne hq with h1 | h1
    · rw [if_pos (by norm_num at *; linarith), if_neg (by linarith), round4_neg]
    · rw [if_neg (by norm_num at *; linarith), if_pos (by linarith), round4_neg, neg_neg]

/-- Saturation: there is one largest value `U` (about 4.75), taken by every level up to 1e-6; `-U` is taken by
every level from `1 - 1e-6` on; all answers lie between. -/
theorem C05_qerfi_saturates : ∃ U : ℝ, 4.7 < U ∧ U < 4.8 ∧
    (∀ q : ℝ, q ≤ 0.000001 → qerfi [q] = .ok [U]) ∧
    (∀ q : ℝ, 1 - 0.000001 ≤ q → qerfi [q] = .ok [-U]) ∧
    (∀ q v : ℝ, qerfi [q] = .ok [v] → -U ≤ v ∧ v ≤ U) := by
  have hlog : Real.log 0.000001 = -(6 * Real.log 10) := by
    rw [show (0.000001 : ℝ) = (10 ^ 6)⁻¹ by norm_num, Real.log_inv, Real.log_pow]; norm_num
  have h10a : (2.302 : ℝ) < Real.log 10 := by
    rw [show (10 : ℝ) = 2 ^ 3 * (5 / 4) by norm_num, Real.log_mul (by norm_num) (by norm_num), Real.log_pow]
    have h1 := Real.log_two_gt_d9
    have h2 : (0.2231 : ℝ) < Real.log (5 / 4) := by
      rw [Real.lt_log_iff_exp_lt (by norm_num)]
      have := Real.exp_bound' (x := 0.2231) (by norm_num) (by norm_num) (n := 5) (by norm_num)
      refine lt_of_le_of_lt this ?_
      simp [Finset.sum_range_succ, Nat.factorial]
      norm_num
    norm_num at *
    linarith
  have h10b : Real.log 10 < 2.303 := by
    rw [show (10 : ℝ) = 2 ^ 3 * (5 / 4) by norm_num, Real.log_mul (by norm_num) (by norm_num), Real.log_pow]
    have h1 := Real.log_two_lt_d9
    have h2 : Real.log (5 / 4) < 0.2232 := by
      rw [Real.log_lt_iff_lt_exp (by norm_num)]
      have := Real.sum_le_exp_of_nonneg (x := 0.2232) (by norm_num) 5
      refine lt_of_lt_of_le ?_ this
      simp [Finset.sum_range_succ, Nat.factorial]
      norm_num
    norm_num at *
    linarith
  set U := PyNum.round4 (devt 0.000001) with hU
  have hUb : 4.7 < U ∧ U < 4.8 := by
    have hn := round4_near (devt 0.000001)
    have hd : 4.71 < devt 0.000001 ∧ devt 0.000001 < 4.79 := by
      unfold devt
      rw [hlog]
      set r := Real.sqrt (-2 * -(6 * Real.log 10)) with hr
      have r1 : (5.255 : ℝ) ≤ r := by
        apply Real.le_sqrt_of_sq_le; norm_num at *; linarith
      have r2 : r ≤ 5.258 := by
        rw [hr, Real.sqrt_le_iff]; constructor
        · norm_num
        · norm_num at *; linarith
      have m1 := dev_mono (by norm_num) r1
      have m2 := dev_mono (by linarith) r2
      have b1 : (4.71 : ℝ) < dev 5.255 := by unfold dev; norm_num
      have b2 : dev 5.258 < 4.79 := by unfold dev; norm_num
      exact ⟨lt_of_lt_of_le b1 m1, lt_of_le_of_lt m2 b2⟩
    rw [abs_le] at hn
    rw [← hU] at hn
    norm_num at *
    constructor <;> linarith [hn.1, hn.2, hd.1, hd.2]
  have hlow : ∀ q : ℝ, q ≤ 0.000001 → qerfi [q] = .ok [U] := by
    intro q hq
    have hx : (0 : ℝ) ≤ 0.5 - q := by norm_num at *; linarith
    have hc : clipq q = 0.000001 := by
      unfold clipq
      rw [abs_of_nonneg hx, max_eq_right (by norm_num at *; linarith)]
    rw [qerfi_single, if_neg (not_lt.2 hx), hc]
  have hhigh : ∀ q : ℝ, 1 - 0.000001 ≤ q → qerfi [q] = .ok [-U] := by
    intro q hq
    have := C05_qerfi_antisymmetric (1 - q) U (hlow _ (by linarith))
    rwa [sub_sub_cancel] at this
  refine ⟨U, hUb.1, hUb.2, hlow, hhigh, ?_⟩
  intro q v hv
  have hlo : qerfi [max q 1] = .ok [-U] := hhigh _ (le_trans (by norm_num) (le_max_right _ _))
  have hhi : qerfi [min q 0] = .ok [U] := hlow _ (le_trans (min_le_right _ _) (by norm_num))
  exact ⟨C05_qerfi_antitone _ _ _ _ (le_max_left _ _) hv hlo, C05_qerfi_antitone _ _ _ _ (min_le_left _ _) hhi hv⟩

/-- Non-vacuity of the pairwise claims: 10 % and 90 % are both answered, oppositely. -/
example : ∃ v w, qerfi [(0.1 : ℝ)] = .ok [v] ∧ qerfi [(0.9 : ℝ)] = .ok [w] ∧ w = -v ∧ w ≤ v := by
  have h1 := qerfi_single 0.1
  have h2 := C05_qerfi_antisymmetric _ _ h1
  have e : (1 : ℝ) - 0.1 = 0.9 := by norm_num
  rw [e] at h2
  exact ⟨_, _, h1, h2, rfl, C05_qerfi_antitone 0.1 0.9 _ _ (by norm_num) h1 h2⟩

end Itm.Props
