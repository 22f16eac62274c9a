import Verif.Model.Prep
import Verif.Lemmas.Basic
import Verif.Spec.Line

/-! `zlsq1` over the reals. -/

namespace Itm
open Spec Finset

/-- Height of sample `j`. -/
def Pfl.h (p : Pfl ℝ) (j : ℕ) : ℝ := p.z.getD j 0

theorem Pfl.get_ok {p : Pfl ℝ} {j : ℕ} (h : j < p.z.length) : p.get ((j : ℤ) + 2) = .ok (p.h j) := by
  unfold Pfl.get
  have hl : p.flat.length = p.z.length + 2 := by simp [Pfl.flat]
  rw [pyGet_nonneg (by omega) (by omega)]
  congr 1
  have : ((j : ℤ) + 2).toNat = j + 2 := by omega
  simp only [this, Pfl.flat, List.getElem_cons_succ]
  unfold Pfl.h
  simp [List.getD, h]

theorem zlsqLoop_ok {p : Pfl ℝ} : ∀ (k : ℕ) {a : ℕ} {x A B : ℝ}, a + k < p.z.length →
    zlsqLoop p k a x A B = .ok (A + ∑ i ∈ range k, p.h (a + i + 1), B + ∑ i ∈ range k, p.h (a + i + 1) * (x + i + 1)) := by
  intro k
  induction k with
  | zero => intro a x A B _; simp [zlsqLoop, pure_ok]
  | succ k ih =>
    intro a x A B h
    unfold zlsqLoop
    have e : ((a : ℤ) + 1 + 2) = ((a + 1 : ℕ) : ℤ) + 2 := by push_cast; ring
    dsimp only
    rw [e, Pfl.get_ok (by omega), ok_bind, ok_bind]
    rw [show ((a : ℤ) + 1) = ((a + 1 : ℕ) : ℤ) by push_cast; ring, ih (by omega)]
    congr 1
    rw [sum_range_succ', sum_range_succ']
    have e1 : (1.0 : ℝ) = 1 := by norm_num
    simp only [e1]
    congr 1
    · rw [add_comm (∑ i ∈ range k, _), ← add_assoc]
      congr 1
      refine sum_congr rfl fun i _ => ?_
      congr 1; omega
    · rw [add_comm (∑ i ∈ range k, _), ← add_assoc]
      congr 1
      · simp
      · refine sum_congr rfl fun i _ => ?_
        rw [show a + 1 + i + 1 = a + (i + 1) + 1 by omega]
        push_cast; ring

theorem trap_eq (f : ℕ → ℝ) (a k : ℕ) : trap f a (k + 1) = (f a + f (a + (k + 1))) / 2 + ∑ i ∈ range k, f (a + i + 1) := by
  induction k with
  | zero => simp [trap]
  | succ k ih =>
    unfold trap at ih ⊢
    rw [sum_range_succ, ih, sum_range_succ]
    rw [show a + (k + 1) + 1 = a + (k + 1 + 1) by omega, show a + k + 1 = a + (k + 1) by omega]
    ring

theorem trap_congr {f g : ℕ → ℝ} {a m : ℕ} (h : ∀ j, a ≤ j → j ≤ a + m → f j = g j) : trap f a m = trap g a m := by
  refine sum_congr rfl fun i hi => ?_
  have := mem_range.1 hi
  rw [h _ (by omega) (by omega), h _ (by omega) (by omega)]

theorem trap_add (f g : ℕ → ℝ) (a m : ℕ) : trap (fun j => f j + g j) a m = trap f a m + trap g a m := by
  unfold trap; rw [← sum_add_distrib]; exact sum_congr rfl fun i _ => by ring

theorem trap_mul (c : ℝ) (f : ℕ → ℝ) (a m : ℕ) : trap (fun j => c * f j) a m = c * trap f a m := by
  unfold trap; rw [mul_sum]; exact sum_congr rfl fun i _ => by ring

theorem trap_nonneg {f : ℕ → ℝ} (h : ∀ j, 0 ≤ f j) (a m : ℕ) : 0 ≤ trap f a m := by
  unfold trap; exact sum_nonneg fun i _ => by have := h (a + i); have := h (a + i + 1); linarith

theorem trap_one (a m : ℕ) : trap (fun _ => 1) a m = m := by
  unfold trap; simp

theorem trap_x (c : ℝ) (a m : ℕ) : trap (fun j => (j : ℝ) - c) a m = m * (a - c) + m ^ 2 / 2 := by
  unfold trap
  induction m with
  | zero => simp
  | succ m ih => rw [sum_range_succ, ih]; push_cast; ring

theorem trap_x2 (c : ℝ) (a m : ℕ) : trap (fun j => ((j : ℝ) - c) ^ 2) a m =
    m * (a - c) ^ 2 + m ^ 2 * (a - c) + (2 * m ^ 3 + m) / 6 := by
  unfold trap
  induction m with
  | zero => simp
  | succ m ih => rw [sum_range_succ, ih]; push_cast; ring

/-- Centre of the window. -/
noncomputable def mid (a m : ℕ) : ℝ := a + m / 2
/-- Mean height. -/
noncomputable def fitA (z : ℕ → ℝ) (a m : ℕ) : ℝ := trap z a m / m
/-- Slope per sample. -/
noncomputable def fitB (z : ℕ → ℝ) (a m : ℕ) : ℝ := 12 * trap (fun j => z j * (j - mid a m)) a m / ((m * m + 2) * m)
/-- Value of the fitted line at sample position `t`. -/
noncomputable def fitAt (z : ℕ → ℝ) (a m : ℕ) (t : ℝ) : ℝ := fitA z a m + fitB z a m * (t - mid a m)

theorem trap_mid (a m : ℕ) : trap (fun j => (j : ℝ) - mid a m) a m = 0 := by rw [trap_x]; unfold mid; ring
theorem trap_mid2 (a m : ℕ) : trap (fun j => ((j : ℝ) - mid a m) ^ 2) a m = m * (m * m + 2) / 12 := by
  rw [trap_x2]; unfold mid; ring

theorem fit_diff {z : ℕ → ℝ} {a m : ℕ} (hm : 0 < m) (c' s' : ℝ) :
    lineErr z a m c' s' = lineErr z a m (fitAt z a m 0) (fitB z a m) +
      trap (fun j => ((fitA z a m - c' - s' * mid a m) + (fitB z a m - s') * ((j : ℝ) - mid a m)) ^ 2) a m := by
  have hm' : (0 : ℝ) < m := by exact_mod_cast hm
  obtain ⟨A, hA⟩ : ∃ A, A = fitA z a m := ⟨_, rfl⟩
  obtain ⟨B, hB⟩ : ∃ B, B = fitB z a m := ⟨_, rfl⟩
  obtain ⟨M, hM⟩ : ∃ M, M = mid a m := ⟨_, rfl⟩
  have n1 : trap z a m = A * m := by rw [hA]; unfold fitA; field_simp
  have n2 : trap (fun j => z j * (j - M)) a m = B * (m * (m * m + 2) / 12) := by
    rw [hB, hM]; unfold fitB
    have : ((m : ℝ) * m + 2) * m ≠ 0 := by positivity
    field_simp
  have t0 := trap_one a m
  have t1 := trap_mid a m
  have t2 := trap_mid2 a m
  rw [← hM] at t1 t2
  -- difference of the errors is a square
  unfold lineErr fitAt
  rw [← hA, ← hB, ← hM]
  have e1 : (fun j : ℕ => (z j - (c' + s' * j)) ^ 2) = fun j : ℕ => (z j - (A + B * (0 - M) + B * j)) ^ 2 +
      (((A - c' - s' * M) + (B - s') * ((j : ℝ) - M)) ^ 2 +
        (2 * (A - c' - s' * M) * (z j + (-A) * 1 + (-B) * ((j : ℝ) - M)) +
         2 * (B - s') * (z j * ((j : ℝ) - M) + (-A) * ((j : ℝ) - M) + (-B) * ((j : ℝ) - M) ^ 2))) := by
    funext j; ring
  rw [e1, trap_add, trap_add, trap_add, trap_mul, trap_mul, trap_add, trap_add, trap_add, trap_add, trap_mul, trap_mul, trap_mul, trap_mul]
  rw [n1, n2, t0, t1, t2]; ring

theorem fit_best {z : ℕ → ℝ} {a m : ℕ} (hm : 0 < m) : BestLine z a m (fitAt z a m 0) (fitB z a m) := by
  intro c' s'
  rw [fit_diff hm c' s']
  have := trap_nonneg (f := fun j => ((fitA z a m - c' - s' * mid a m) + (fitB z a m - s') * ((j : ℝ) - mid a m)) ^ 2)
    (fun j => sq_nonneg _) a m
  linarith

/-- The fit is unique. -/
theorem best_unique {z : ℕ → ℝ} {a m : ℕ} (hm : 0 < m) {c s : ℝ} (h : BestLine z a m c s) :
    c = fitAt z a m 0 ∧ s = fitB z a m := by
  have h1 := h (fitAt z a m 0) (fitB z a m)
  rw [fit_diff hm c s] at h1
  obtain ⟨f, hf⟩ : ∃ f : ℕ → ℝ, f = fun j : ℕ => ((fitA z a m - c - s * mid a m) + (fitB z a m - s) * ((j : ℝ) - mid a m)) ^ 2 := ⟨_, rfl⟩
  rw [← hf] at h1
  have hf0 : ∀ j, 0 ≤ f j := by intro j; rw [hf]; exact sq_nonneg _
  have h2 : (f a + f (a + 1)) / 2 ≤ trap f a m := by
    unfold trap
    refine le_trans ?_ (single_le_sum (f := fun i => (f (a + i) + f (a + i + 1)) / 2) (fun i _ => ?_) (mem_range.2 hm))
    · simp
    · have := hf0 (a + i); have := hf0 (a + i + 1); linarith
  have e0 : f a = 0 := by have := hf0 a; have := hf0 (a + 1); linarith
  have e1 : f (a + 1) = 0 := by have := hf0 a; have := hf0 (a + 1); linarith
  rw [hf] at e0 e1
  have e0 := pow_eq_zero_iff (two_ne_zero) |>.1 e0
  have e1 := pow_eq_zero_iff (two_ne_zero) |>.1 e1
  push_cast at e1
  have hs : s = fitB z a m := by linarith
  refine ⟨?_, hs⟩
  unfold fitAt
  rw [hs] at e0
  linarith

theorem zlsqFit_ok {p : Pfl ℝ} {a k : ℕ} (h : a + (k + 1) < p.z.length) :
    zlsqFit p a (a + (k + 1) : ℕ) = .ok (fitAt p.h a (k + 1) 0, fitAt p.h a (k + 1) p.np) := by
  unfold zlsqFit
  have em : (((a + (k + 1) : ℕ) : ℤ) - (a : ℤ)) = ((k + 1 : ℕ) : ℤ) := by push_cast; ring
  dsimp only
  rw [em, Pfl.get_ok (by omega), ok_bind, Pfl.get_ok h, ok_bind]
  rw [show (((k + 1 : ℕ) : ℤ) - 1).toNat = k by omega, zlsqLoop_ok k (by omega), ok_bind]
  dsimp only
  rw [if_neg (by omega)]
  have hk : (0 : ℝ) < ((k + 1 : ℕ) : ℝ) := by positivity
  have e5 : (0.5 : ℝ) = 1 / 2 := by norm_num
  have e12 : (12.0 : ℝ) = 12 := by norm_num
  simp only [rofInt, lit_eq, e5, e12]
  rw [pyDiv_ok (by push_cast; positivity), ok_bind, pure_ok]
  congr 1
  have hA : 1 / 2 * (p.h a + p.h (a + (k + 1))) + ∑ i ∈ range k, p.h (a + i + 1) = trap p.h a (k + 1) := by
    rw [trap_eq]; ring
  have hB : 1 / 2 * (p.h a - p.h (a + (k + 1))) * (-(1 / 2) * (((k + 1 : ℕ) : ℤ) : ℝ)) +
      ∑ i ∈ range k, p.h (a + i + 1) * (-(1 / 2) * (((k + 1 : ℕ) : ℤ) : ℝ) + i + 1) =
      trap (fun j => p.h j * (j - mid a (k + 1))) a (k + 1) := by
    rw [trap_eq]
    unfold mid
    congr 1
    · push_cast; ring
    · refine sum_congr rfl fun i _ => ?_
      push_cast; ring
  rw [hA, hB]
  unfold fitAt fitA fitB
  have hM : (((a + (k + 1) : ℕ) : ℤ) : ℝ) + -(1 / 2) * (((k + 1 : ℕ) : ℤ) : ℝ) = mid a (k + 1) := by
    unfold mid; push_cast; ring
  rw [hM]
  push_cast
  congr 1
  · ring
  · ring

/-- First sample of the window. -/
noncomputable def winA (p : Pfl ℝ) (x1 : ℝ) : ℤ := ⌊max (x1 / p.xi) 0⌋
/-- Last sample of the window. -/
noncomputable def winB (p : Pfl ℝ) (x2 : ℝ) : ℤ := min p.np ⌈x2 / p.xi⌉

theorem pyInt_nonneg {x : ℝ} (h : 0 ≤ x) : pyInt x = ⌊x⌋ := by
  unfold pyInt
  rw [if_neg (by rw [lit_eq, zero_lit]; exact not_lt.2 h)]; rfl

theorem winB_eq (p : Pfl ℝ) (x2 : ℝ) : p.np - ⌊max ((p.np : ℝ) - x2 / p.xi) 0⌋ = winB p x2 := by
  unfold winB
  generalize x2 / p.xi = t
  rcases le_total t p.np with h | h
  · rw [max_eq_left (by linarith), min_eq_right (Int.ceil_le.2 h)]
    have : (p.np : ℝ) - t = ((p.np : ℤ) : ℝ) + -t := by ring
    rw [this, Int.floor_intCast_add, Int.floor_neg]
    ring
  · rw [max_eq_right (by linarith), Int.floor_zero, sub_zero, min_eq_left]
    have h1 := Int.le_ceil t
    have : (p.np : ℝ) ≤ (⌈t⌉ : ℤ) := h.trans h1
    exact_mod_cast this

theorem zlsqWindow_ok {p : Pfl ℝ} {x1 x2 : ℝ} (hx : p.xi ≠ 0) :
    zlsqWindow p x1 x2 = .ok (if winB p x2 ≤ winA p x1 then (max (winA p x1 - 1) 0, p.np - max (p.np - winB p x2 + 1) 0)
      else (winA p x1, winB p x2)) := by
  unfold zlsqWindow
  rw [pyDiv_ok hx, ok_bind, pyDiv_ok hx, ok_bind]
  simp only [pyMax_real, rofInt, zero_lit, lit_eq]
  rw [pyInt_nonneg (le_max_right _ _), pyInt_nonneg (le_max_right _ _), winB_eq]
  change (if winB p x2 ≤ winA p x1 then _ else _) = _
  split_ifs <;> rfl

/-- The fit over a proper window. -/
theorem zlsq1_ok {p : Pfl ℝ} {x1 x2 : ℝ} (hx : 0 < p.xi) (hl : p.np < p.z.length) (hw : winA p x1 < winB p x2) :
    zlsq1 p x1 x2 = .ok (fitAt p.h (winA p x1).toNat (winB p x2 - winA p x1).toNat 0,
      fitAt p.h (winA p x1).toNat (winB p x2 - winA p x1).toNat p.np) := by
  have ha : 0 ≤ winA p x1 := Int.floor_nonneg.2 (le_max_right _ _)
  have hb : winB p x2 ≤ p.np := min_le_left _ _
  unfold zlsq1
  rw [zlsqWindow_ok hx.ne', if_neg (by omega), ok_bind]
  dsimp only
  obtain ⟨a, ea⟩ := Int.eq_ofNat_of_zero_le ha
  obtain ⟨k, ek⟩ := Int.eq_ofNat_of_zero_le (show 0 ≤ winB p x2 - winA p x1 - 1 by omega)
  have eb : winB p x2 = ((a + (k + 1) : ℕ) : ℤ) := by push_cast; omega
  rw [ea, eb, zlsqFit_ok (by omega)]
  have e1 : (((a + (k + 1) : ℕ) : ℤ) - (a : ℤ)).toNat = k + 1 := by omega
  have e2 : ((a : ℤ)).toNat = a := by omega
  rw [e1, e2]

/-! ### effect of adding a line, of scaling -/

theorem fit_line {z : ℕ → ℝ} {a m : ℕ} (hm : 0 < m) (u v c s : ℝ) (t : ℝ) :
    fitAt (fun j => u * z j + v * (c + s * j)) a m t = u * fitAt z a m t + v * (c + s * t) := by
  have hm' : (0 : ℝ) < m := by exact_mod_cast hm
  have hA : fitA (fun j => u * z j + v * (c + s * j)) a m = u * fitA z a m + v * (c + s * mid a m) := by
    unfold fitA
    have e : (fun j : ℕ => u * z j + v * (c + s * j)) = fun j : ℕ => u * z j + ((v * (c + s * mid a m)) * 1 + (v * s) * ((j : ℝ) - mid a m)) := by
      funext j; ring
    rw [e, trap_add, trap_add, trap_mul, trap_mul, trap_mul, trap_one, trap_mid]
    field_simp; ring
  have hB : fitB (fun j => u * z j + v * (c + s * j)) a m = u * fitB z a m + v * s := by
    unfold fitB
    have e : (fun j : ℕ => (u * z j + v * (c + s * j)) * ((j : ℝ) - mid a m)) = fun j : ℕ => u * (z j * ((j : ℝ) - mid a m)) +
        ((v * (c + s * mid a m)) * ((j : ℝ) - mid a m) + (v * s) * ((j : ℝ) - mid a m) ^ 2) := by
      funext j; ring
    rw [e, trap_add, trap_add, trap_mul, trap_mul, trap_mul, trap_mid, trap_mid2]
    have : ((m : ℝ) * m + 2) * m ≠ 0 := by positivity
    field_simp; ring
  unfold fitAt
  rw [hA, hB]; ring

end Itm
