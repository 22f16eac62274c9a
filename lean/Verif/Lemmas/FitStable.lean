import Verif.Lemmas.Relief

/-! What errors of the heights do to a fitted line and to the irregularity. -/

namespace Itm
open Itm.Spec Finset

theorem trap_sub (f g : ℕ → ℝ) (a m : ℕ) : trap (fun j => f j - g j) a m = trap f a m - trap g a m := by
  have h := trap_add f (fun j => (-1) * g j) a m
  rw [trap_mul] at h
  have e : (fun j => f j - g j) = fun j => f j + (-1) * g j := by funext j; ring
  rw [e, h]; ring

theorem fitA_sub (f g : ℕ → ℝ) (a m : ℕ) : fitA (fun j => f j - g j) a m = fitA f a m - fitA g a m := by
  unfold fitA; rw [trap_sub]; ring

theorem fitB_sub (f g : ℕ → ℝ) (a m : ℕ) : fitB (fun j => f j - g j) a m = fitB f a m - fitB g a m := by
  unfold fitB
  have e : (fun j : ℕ => (f j - g j) * ((j : ℝ) - mid a m)) = fun j => f j * ((j : ℝ) - mid a m) - g j * ((j : ℝ) - mid a m) := by funext j; ring
  rw [e, trap_sub]; ring

theorem fitAt_sub (f g : ℕ → ℝ) (a m : ℕ) (t : ℝ) : fitAt (fun j => f j - g j) a m t = fitAt f a m t - fitAt g a m t := by
  unfold fitAt; rw [fitA_sub, fitB_sub]; ring

/-- The line fitted to values of at most `δ`. -/
theorem fit_small {e : ℕ → ℝ} {a m : ℕ} {δ : ℝ} (hm : 0 < m) (h : ∀ j, a ≤ j → j ≤ a + m → |e j| ≤ δ) (t : ℝ) :
    fitAt e a m t ^ 2 ≤ δ ^ 2 * (1 + 12 * ((t - mid a m) / m) ^ 2) := by
  have hm' : (0 : ℝ) < m := by exact_mod_cast hm
  have k := fit_diff (z := e) (a := a) hm 0 0
  have k0 : 0 ≤ lineErr e a m (fitAt e a m 0) (fitB e a m) := trap_nonneg (fun j => sq_nonneg _) a m
  have ke : lineErr e a m 0 0 ≤ m * δ ^ 2 := by
    have : lineErr e a m 0 0 ≤ trap (fun _ => δ ^ 2) a m := by
      unfold lineErr trap
      refine sum_le_sum fun i hi => ?_
      have := mem_range.1 hi
      have q : ∀ j, a ≤ j → j ≤ a + m → (e j - (0 + 0 * (j : ℝ))) ^ 2 ≤ δ ^ 2 := fun j j1 j2 => by
        have := h j j1 j2
        rw [zero_mul, add_zero, sub_zero, ← sq_abs]
        exact pow_le_pow_left₀ (abs_nonneg _) this 2
      dsimp only
      linarith [q (a + i) (by omega) (by omega), q (a + i + 1) (by omega) (by omega)]
    refine this.trans (le_of_eq ?_)
    unfold trap
    rw [sum_const, card_range, nsmul_eq_mul]
    ring
  unfold fitAt
  obtain ⟨A, hA⟩ : ∃ A, A = fitA e a m := ⟨_, rfl⟩
  obtain ⟨B, hB⟩ : ∃ B, B = fitB e a m := ⟨_, rfl⟩
  have en : (fun j : ℕ => ((A - 0 - 0 * mid a m) + (B - 0) * ((j : ℝ) - mid a m)) ^ 2) =
      fun j : ℕ => A ^ 2 * 1 + (2 * A * B * ((j : ℝ) - mid a m) + B ^ 2 * ((j : ℝ) - mid a m) ^ 2) := by funext j; ring
  rw [← hA, ← hB, en, trap_add, trap_add, trap_mul, trap_mul, trap_mul, trap_one, trap_mid, trap_mid2] at k
  rw [← hB] at k0
  rw [← hA, ← hB]
  obtain ⟨x, hx⟩ : ∃ x, x = (t - mid a m) / m := ⟨_, rfl⟩
  have ex : t - mid a m = m * x := by rw [hx]; field_simp
  rw [← hx, ex]
  have k1 : (m : ℝ) * (A ^ 2 + B ^ 2 * (m * m + 2) / 12) ≤ m * δ ^ 2 := by
    have : (m : ℝ) * (A ^ 2 + B ^ 2 * (m * m + 2) / 12) = A ^ 2 * m + (2 * A * B * 0 + B ^ 2 * (m * (m * m + 2) / 12)) := by ring
    linarith
  have k2 := le_of_mul_le_mul_left k1 hm'
  have k3 : A ^ 2 + (B * m) ^ 2 / 12 ≤ δ ^ 2 := by nlinarith [sq_nonneg B]
  refine le_trans ?_ (mul_le_mul_of_nonneg_right k3 (by positivity))
  nlinarith [sq_nonneg (12 * A * x - B * m)]

/-- Inside the window the line moves by at most twice the error. -/
theorem fit_small_inside {e : ℕ → ℝ} {a m : ℕ} {δ t : ℝ} (hm : 0 < m) (hδ : 0 ≤ δ) (h : ∀ j, a ≤ j → j ≤ a + m → |e j| ≤ δ)
    (h1 : (a : ℝ) ≤ t) (h2 : t ≤ a + m) : |fitAt e a m t| ≤ 2 * δ := by
  have hm' : (0 : ℝ) < m := by exact_mod_cast hm
  have k := fit_small hm h t
  have hr : ((t - mid a m) / m) ^ 2 ≤ 1 / 4 := by
    have : |(t - mid a m) / m| ≤ 1 / 2 := by
      rw [abs_div, abs_of_pos hm', div_le_iff₀ hm', abs_le]
      unfold mid
      constructor <;> linarith
    rw [← sq_abs]
    have := pow_le_pow_left₀ (abs_nonneg _) this 2
    linarith
  refine abs_le_of_sq_le_sq (k.trans ?_) (by linarith)
  nlinarith [sq_nonneg δ]

/-- Order statistics follow their list. -/
theorem IsRank.near {f g : ℕ → ℝ} {N k : ℕ} {v w ε : ℝ} (h : ∀ j, j < N → |g j - f j| ≤ ε) (hv : IsRank ((List.range N).map f) k v)
    (hw : IsRank ((List.range N).map g) k w) : |w - v| ≤ ε := by
  have step : ∀ {f g : ℕ → ℝ} {v w : ℝ}, (∀ j, j < N → |g j - f j| ≤ ε) → IsRank ((List.range N).map f) k v →
      IsRank ((List.range N).map g) k w → w - v ≤ ε := by
    intro f g v w h hv hw
    by_contra hc
    push Not at hc
    have a1 := hv.2.1
    have a2 := hw.2.2
    rw [List.countP_map] at a1 a2
    have : (List.range N).countP ((fun x => decide (w ≤ x)) ∘ g) ≤ (List.range N).countP ((fun x => decide (v < x)) ∘ f) := by
      refine List.countP_mono_left fun j hj hx => ?_
      have hx : w ≤ g j := by simpa using hx
      have := abs_le.1 (h j (List.mem_range.1 hj))
      simp only [Function.comp, decide_eq_true_eq]
      linarith [this.2]
    omega
  rw [abs_le]
  refine ⟨?_, step h hv hw⟩
  have := step (f := g) (g := f) (fun j hj => by rw [abs_sub_comm]; exact h j hj) hw hv
  linarith

theorem interp_sub (f g : ℕ → ℝ) (t : ℝ) : interp (fun j => f j - g j) t = interp f t - interp g t := by
  unfold interp; ring

theorem irregularity_near {z z' : ℕ → ℝ} {xa xb L v v' δ : ℝ} {n : ℕ} (h0 : 0 ≤ xa) (h2 : 2 ≤ xb - xa) (hb : xb ≤ n) (hL : 0 ≤ L)
    (hz : ∀ j, j ≤ n → |z' j - z j| ≤ δ) (h : IsIrregularity z xa xb L v) (h' : IsIrregularity z' xa xb L v') :
    |v' - v| * (1 - 0.8 * Real.exp (-L / 50000)) ≤ 6 * δ := by
  obtain ⟨c, s, hi, lo, hB, r1, r2, e⟩ := h
  obtain ⟨c', s', hi', lo', hB', r1', r2', e'⟩ := h'
  have hN : resampled xa xb = 10 * trimmed xa xb - 5 := rfl
  obtain ⟨k4, -⟩ := trimmed_bounds xa xb
  have hδ : 0 ≤ δ := (abs_nonneg _).trans (hz 0 (Nat.zero_le _))
  obtain ⟨m, hm⟩ : ∃ m, m = resampled xa xb - 1 := ⟨_, rfl⟩
  have hm1 : resampled xa xb = m + 1 := by omega
  have hm0 : 0 < m := by omega
  have hmR : (0 : ℝ) < m := by exact_mod_cast hm0
  have eN : ((resampled xa xb : ℕ) : ℝ) - 1 = m := by rw [hm1]; push_cast; ring
  obtain ⟨b1, b2⟩ := best_unique (by omega) hB
  obtain ⟨b1', b2'⟩ := best_unique (by omega) hB'
  rw [← hm] at b1 b2 b1' b2'
  obtain ⟨d, hd⟩ : ∃ d : ℕ → ℝ, d = fun j => resample z' xa xb j - resample z xa xb j := ⟨_, rfl⟩
  have hd' : ∀ j, j ≤ m → |d j| ≤ δ := by
    intro j hj
    have hj' : (j : ℝ) ≤ m := by exact_mod_cast hj
    have hs : (j : ℝ) * ((xb - xa) / m) ≤ xb - xa := by
      rw [mul_div_assoc', div_le_iff₀ hmR, mul_comm]
      exact mul_le_mul_of_nonneg_left hj' (by linarith)
    have hs0 : 0 ≤ (j : ℝ) * ((xb - xa) / m) := mul_nonneg (Nat.cast_nonneg j) (div_nonneg (by linarith) hmR.le)
    rw [hd]
    dsimp only
    unfold resample
    rw [eN, ← interp_sub, abs_le]
    exact interp_mem (n := n) (by linarith) (by linarith) fun i hi => abs_le.1 (hz i hi)
  have hline : ∀ j, j ≤ m → |(resample z' xa xb j - (c' + s' * j)) - (resample z xa xb j - (c + s * j))| ≤ 3 * δ := by
    intro j hj
    have hj' : (j : ℝ) ≤ m := by exact_mod_cast hj
    have k := fit_small_inside (t := j) hm0 hδ (fun i _ i2 => hd' i (by omega)) (a := 0) (by simp) (by push_cast; linarith)
    rw [hd, fitAt_sub] at k
    have k1 := hd' j hj
    rw [hd] at k1
    dsimp only at k1
    have l1 : fitAt (resample z xa xb) 0 m j = c + s * j := by rw [b1, b2]; unfold fitAt; ring
    have l2 : fitAt (resample z' xa xb) 0 m j = c' + s' * j := by rw [b1', b2']; unfold fitAt; ring
    rw [l1, l2] at k
    rw [abs_le] at k k1 ⊢
    constructor <;> linarith [k.1, k.2, k1.1, k1.2]
  have n1 := IsRank.near (fun j hj => hline j (by omega)) r1 r1'
  have n2 := IsRank.near (fun j hj => hline j (by omega)) r2 r2'
  have f := atten_pos hL
  rw [e, e', ← sub_div, abs_div, abs_of_pos f, div_mul_cancel₀ _ f.ne']
  rw [abs_le] at n1 n2 ⊢
  constructor <;> linarith [n1.1, n1.2, n2.1, n2.2]

end Itm
