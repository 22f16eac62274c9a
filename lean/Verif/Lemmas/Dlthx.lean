import Verif.Lemmas.Zlsq
import Verif.Props.C01
import Verif.Spec.Rough

/-! `dlthx` over the reals. -/

namespace Itm
open Itm.Spec Itm.Props

theorem interp_cell {z : ℕ → ℝ} {k : ℕ} {x : ℝ} (hk : 1 ≤ k) (h1 : -1 ≤ x) (h0 : x ≤ 0) :
    z k + (z k - z (k - 1)) * x = interp z (k + x) := by
  obtain ⟨m, rfl⟩ : ∃ m, k = m + 1 := ⟨k - 1, by omega⟩
  rw [Nat.add_sub_cancel]
  unfold interp
  have hm : (0 : ℝ) ≤ m := Nat.cast_nonneg m
  rcases eq_or_lt_of_le h0 with e | h
  · subst e
    rw [add_zero, Nat.floor_natCast, Int.fract_natCast]; ring
  · have e : ((m + 1 : ℕ) : ℝ) + x = m + (1 + x) := by push_cast; ring
    have ef : ⌊((m + 1 : ℕ) : ℝ) + x⌋₊ = m := by
      rw [e, Nat.floor_eq_iff (by linarith)]
      constructor <;> linarith
    have ec : Int.fract (((m + 1 : ℕ) : ℝ) + x) = 1 + x := by
      rw [e, Int.fract_natCast_add, Int.fract_eq_self.2 ⟨by linarith, by linarith⟩]
    rw [ef, ec]; ring

theorem dlthxSkip_ok {np : ℤ} : ∀ (d : ℕ) {xa : ℝ} {k : ℤ}, (np - k).toNat = d → -1 ≤ xa → k ≤ np → (k : ℝ) + xa ≤ np →
    ∃ xa' k', dlthxSkip np xa k = (xa', k') ∧ (k' : ℝ) + xa' = k + xa ∧ k ≤ k' ∧ k' ≤ np ∧ -1 ≤ xa' ∧ xa' ≤ 0 := by
  intro d
  induction d with
  | zero =>
    intro xa k hd h1 hk ht
    have : k = np := by omega
    subst this
    rw [dlthxSkip, if_neg (by omega)]
    exact ⟨_, _, rfl, rfl, le_rfl, le_rfl, h1, by linarith⟩
  | succ d ih =>
    intro xa k hd h1 hk ht
    rw [dlthxSkip]
    rw [zero_lit]
    by_cases c : 0 < xa ∧ k < np
    · rw [if_pos c]
      have e1 : (1.0 : ℝ) = 1 := by norm_num
      rw [e1]
      obtain ⟨xa', k', e, e2, h2, h3⟩ := ih (xa := xa - 1) (k := k + 1) (by omega) (by linarith [c.1]) (by omega) (by push_cast; linarith)
      refine ⟨xa', k', e, by rw [e2]; push_cast; ring, by omega, h3⟩
    · rw [if_neg c]
      exact ⟨_, _, rfl, rfl, le_rfl, hk, h1, by
        by_contra hc
        exact c ⟨not_le.1 hc, by omega⟩⟩

theorem dlthxSample_ok {p : Pfl ℝ} {xa : ℝ} {k : ℤ} (h1 : 1 ≤ k) (hk : k ≤ p.np) (hl : p.np < p.z.length) (hx : -1 ≤ xa) (h0 : xa ≤ 0) :
    dlthxSample p xa k = .ok (interp p.h (k + xa)) := by
  obtain ⟨j, rfl⟩ := Int.eq_ofNat_of_zero_le (show 0 ≤ k by omega)
  unfold dlthxSample
  rw [if_pos (by unfold Pfl.len; omega), Pfl.get_ok (by omega), ok_bind]
  have e : ((j : ℤ) + 1) = ((j - 1 : ℕ) : ℤ) + 2 := by omega
  rw [e, Pfl.get_ok (by omega), ok_bind, pure_ok]
  have := interp_cell (z := p.h) (k := j) (x := xa) (by omega) hx h0
  rw [this]; push_cast; rfl

theorem dlthxResample_ok {p : Pfl ℝ} {step : ℝ} (hs : 0 ≤ step) (hl : p.np < p.z.length) : ∀ (n : ℕ) {xa : ℝ} {k : ℤ},
    -1 ≤ xa → 1 ≤ k → k ≤ p.np → (k : ℝ) + xa + ((n : ℝ) - 1) * step ≤ p.np →
    dlthxResample p step n xa k = .ok ((List.range n).map fun i : ℕ => interp p.h (k + xa + i * step)) := by
  intro n
  induction n with
  | zero => intro xa k _ _ _ _; rfl
  | succ n ih =>
    intro xa k hx h1 hk ht
    have hn : (0 : ℝ) ≤ n := Nat.cast_nonneg n
    push_cast at ht
    have hns : 0 ≤ (n : ℝ) * step := by positivity
    obtain ⟨xa', k', e, e2, h2, h3, h4, h5⟩ := dlthxSkip_ok (np := p.np) _ rfl hx hk (by nlinarith)
    unfold dlthxResample
    dsimp only
    rw [e]
    dsimp only
    rw [dlthxSample_ok (by omega) h3 hl h4 h5, ok_bind]
    rcases Nat.eq_zero_or_pos n with hz | hz
    · subst hz
      simp only [dlthxResample, pure_ok, ok_bind]
      rw [e2]
      simp
    · have hn1 : (1 : ℝ) ≤ n := by exact_mod_cast hz
      rw [ih (xa := xa' + step) (k := k') (by linarith) (by omega) h3 (by nlinarith), ok_bind, pure_ok, e2]
      rw [List.range_succ_eq_map, List.map_cons, List.map_map]
      congr 2
      · simp
      · apply List.map_congr_left
        intro i _
        simp only [Function.comp, Nat.cast_succ]
        congr 1
        linarith

theorem dlthxDetrend_ok {step : ℝ} (f : ℕ → ℝ) : ∀ (n m : ℕ) (x : ℝ),
    dlthxDetrend step ((List.range n).map fun i => f (m + i)) x = (List.range n).map fun i : ℕ => f (m + i) - (x + step * i) := by
  intro n
  induction n with
  | zero => intro m x; rfl
  | succ n ih =>
    intro m x
    rw [List.range_succ_eq_map, List.map_cons, List.map_map, List.map_cons, List.map_map]
    have e : ((fun i => f (m + i)) ∘ Nat.succ) = fun i => f (m + 1 + i) := by
      funext i; simp only [Function.comp]; congr 1; omega
    rw [e]
    unfold dlthxDetrend
    rw [ih]
    congr 1
    · simp
    · apply List.map_congr_left
      intro i _
      simp only [Function.comp, Nat.succ_eq_add_one, Nat.cast_add, Nat.cast_one]
      rw [show m + 1 + i = m + (i + 1) by omega]; ring

theorem fitAt_congr {f g : ℕ → ℝ} {a m : ℕ} (h : ∀ j, a ≤ j → j ≤ a + m → f j = g j) (t : ℝ) : fitAt f a m t = fitAt g a m t := by
  unfold fitAt fitA fitB
  rw [trap_congr h, trap_congr (f := fun j => f j * _) (g := fun j => g j * _) (fun j h1 h2 => by rw [h j h1 h2])]

theorem trimmed_bounds (xa xb : ℝ) : 4 ≤ trimmed xa xb ∧ trimmed xa xb ≤ 25 := by
  unfold trimmed; omega

theorem dlthxKa_eq {xa xb : ℝ} (h : 2 ≤ xb - xa) : dlthxKa xa xb = trimmed xa xb := by
  unfold dlthxKa trimmed
  have e : (0.1 : ℝ) * (xb - xa + 8.0) = (xb - xa + 8) / 10 := by norm_num; ring
  rw [e, pyInt_nonneg (by linarith)]
  have : ⌊(xb - xa + 8) / 10⌋ = ((⌊(xb - xa + 8) / 10⌋₊ : ℕ) : ℤ) := by
    rw [Int.natCast_floor_eq_floor (by linarith)]
  rw [this]; push_cast; omega

theorem atten_pos {L : ℝ} (h : 0 ≤ L) : 0 < 1 - 0.8 * Real.exp (-L / 50000) := by
  have : Real.exp (-L / 50000) ≤ 1 := Real.exp_le_one_iff.2 (by linarith [div_nonneg h (by norm_num : (0:ℝ) ≤ 50000), neg_div 50000 L])
  norm_num
  linarith

theorem dlthx_short {p : Pfl ℝ} {x1 x2 : ℝ} (hx : 0 < p.xi) (h : x2 / p.xi - x1 / p.xi < 2) : dlthx p x1 x2 = .ok 0 := by
  unfold dlthx
  rw [pyDiv_ok hx.ne', ok_bind, pyDiv_ok hx.ne', ok_bind]
  rw [if_neg (by rw [lit_eq]; norm_num; linarith), pure_ok, zero_lit]

theorem dlthx_ok {p : Pfl ℝ} {x1 x2 : ℝ} (hx : 0 < p.xi) (hl : p.np < p.z.length) (h1 : 0 ≤ x1) (h2 : x2 ≤ p.np * p.xi)
    (h : 2 ≤ x2 / p.xi - x1 / p.xi) : ∃ v, dlthx p x1 x2 = .ok v ∧ IsIrregularity p.h (x1 / p.xi) (x2 / p.xi) (x2 - x1) v := by
  have h12 : x1 ≤ x2 := by
    by_contra hc
    have : x2 / p.xi ≤ x1 / p.xi := div_le_div_of_nonneg_right (not_le.1 hc).le hx.le
    linarith
  have hA0 : 0 ≤ x1 / p.xi := by positivity
  have hBn : x2 / p.xi ≤ p.np := by rw [div_le_iff₀ hx]; exact h2
  unfold dlthx
  rw [pyDiv_ok hx.ne', ok_bind, pyDiv_ok hx.ne', ok_bind]
  obtain ⟨xa, hxa⟩ : ∃ xa, xa = x1 / p.xi := ⟨_, rfl⟩
  obtain ⟨xb, hxb⟩ : ∃ xb, xb = x2 / p.xi := ⟨_, rfl⟩
  rw [← hxa, ← hxb] at h ⊢
  rw [← hxa] at hA0
  rw [← hxb] at hBn
  clear hxa hxb
  rw [if_pos (by rw [lit_eq]; norm_num; linarith)]
  dsimp only
  rw [dlthxKa_eq h]
  obtain ⟨kb4, kb25⟩ := trimmed_bounds xa xb
  obtain ⟨n, hn⟩ : ∃ n, n = resampled xa xb := ⟨_, rfl⟩
  obtain ⟨ka, hka⟩ : ∃ ka, ka = trimmed xa xb := ⟨_, rfl⟩
  have hnk : n = 10 * ka - 5 := by rw [hn, hka]; rfl
  rw [← hka] at kb4 kb25 ⊢
  have en : (10 * (ka : ℤ) - 5) = (n : ℤ) := by omega
  have en1 : ((n : ℤ) - 1) = ((n - 1 : ℕ) : ℤ) := by omega
  have hn1 : (0 : ℝ) < ((n - 1 : ℕ) : ℝ) := by exact_mod_cast (by omega : 0 < n - 1)
  have hnc : ((n - 1 : ℕ) : ℝ) = (n : ℝ) - 1 := by rw [Nat.cast_sub (by omega)]; simp
  rw [en, en1]
  simp only [rofInt, Int.cast_natCast]
  rw [pyDiv_ok hn1.ne', ok_bind]
  have e1 : (1.0 : ℝ) = 1 := by norm_num
  rw [e1, pyInt_nonneg (by linarith)]
  obtain ⟨step, hst⟩ : ∃ step, step = (xb - xa) / ((n - 1 : ℕ) : ℝ) := ⟨_, rfl⟩
  have hst0 : 0 ≤ step := by rw [hst]; exact div_nonneg (by linarith) hn1.le
  have hstn : ((n - 1 : ℕ) : ℝ) * step = xb - xa := by rw [hst]; field_simp
  rw [← hst]
  obtain ⟨K, hK⟩ : ∃ K, K = ⌊xa + 1⌋ := ⟨_, rfl⟩
  have hKl : (K : ℝ) ≤ xa + 1 := by rw [hK]; exact Int.floor_le _
  have hKu : xa + 1 < K + 1 := by rw [hK]; exact Int.lt_floor_add_one _
  have hK1 : 1 ≤ K := by rw [hK]; exact Int.le_floor.2 (by push_cast; linarith)
  have hKn : K ≤ p.np := by
    have : (K : ℝ) ≤ p.np := by linarith
    exact_mod_cast this
  rw [← hK, Int.toNat_natCast]
  rw [dlthxResample_ok hst0 hl n (xa := xa - K) (k := K) (by linarith) hK1 hKn (by rw [← hnc, hstn]; linarith), ok_bind]
  have esam : (fun i : ℕ => interp p.h ((K : ℝ) + (xa - K) + i * step)) = resample p.h xa xb := by
    funext i
    unfold resample
    rw [← hn, ← hnc, ← hst]
    congr 1; ring
  rw [esam]
  obtain ⟨f, hf⟩ : ∃ f, f = resample p.h xa xb := ⟨_, rfl⟩
  rw [← hf]
  -- the fit
  obtain ⟨q, hq⟩ : ∃ q : Pfl ℝ, q = ⟨((n - 1 : ℕ) : ℤ), 1, (List.range n).map f⟩ := ⟨_, rfl⟩
  rw [zero_lit, ← hq]
  have hqh : ∀ j, j < n → q.h j = f j := by
    intro j hj
    rw [hq]
    unfold Pfl.h
    simp [List.getD, hj]
  have hwa : winA q 0 = 0 := by unfold winA; simp
  have hwb : winB q ((n - 1 : ℕ) : ℝ) = ((n - 1 : ℕ) : ℤ) := by
    unfold winB
    have : ((n - 1 : ℕ) : ℝ) / q.xi = ((n - 1 : ℕ) : ℝ) := by rw [hq]; simp
    rw [this, Int.ceil_natCast, hq]; simp
  have hz := zlsq1_ok (p := q) (x1 := 0) (x2 := ((n - 1 : ℕ) : ℝ)) (by rw [hq]; norm_num) (by rw [hq]; simp; omega) (by rw [hwa, hwb]; omega)
  rw [hwa, hwb] at hz
  rw [show (0 : ℤ).toNat = 0 from rfl, show (((n - 1 : ℕ) : ℤ) - 0).toNat = n - 1 by omega,
    show (q.np : ℝ) = ((n - 1 : ℕ) : ℝ) by rw [hq]; rfl] at hz
  rw [fitAt_congr (f := q.h) (g := f) (fun j _ h2 => hqh j (by omega)), fitAt_congr (f := q.h) (g := f) (fun j _ h2 => hqh j (by omega))] at hz
  rw [hz, ok_bind]
  dsimp only
  rw [pyDiv_ok hn1.ne', ok_bind]
  have hB : (fitAt f 0 (n - 1) ((n - 1 : ℕ) : ℝ) - fitAt f 0 (n - 1) 0) / ((n - 1 : ℕ) : ℝ) = fitB f 0 (n - 1) := by
    unfold fitAt; field_simp; ring
  rw [hB]
  have hdt := dlthxDetrend_ok (step := fitB f 0 (n - 1)) f n 0 (fitAt f 0 (n - 1) 0)
  simp only [Nat.zero_add] at hdt
  rw [show (List.range n).map (fun i => f i) = (List.range n).map f from rfl] at hdt
  rw [hdt]
  have hres : ((List.range n).map fun i : ℕ => f i - (fitAt f 0 (n - 1) 0 + fitB f 0 (n - 1) * i)) =
      residuals p.h xa xb (fitAt f 0 (n - 1) 0) (fitB f 0 (n - 1)) := by
    unfold residuals; rw [← hn, ← hf]
  rw [hres]
  obtain ⟨R, hR⟩ : ∃ R, R = residuals p.h xa xb (fitAt f 0 (n - 1) 0) (fitB f 0 (n - 1)) := ⟨_, rfl⟩
  have hRl : R.length = n := by rw [hR, ← hres]; simp
  rw [← hR]
  obtain ⟨hi, ehi, rhi⟩ := C01_qtile_rank R (ka - 1) (by omega)
  obtain ⟨lo, elo, rlo⟩ := C01_qtile_rank R (n - ka) (by omega)
  rw [show ((ka : ℤ) - 1) = ((ka - 1 : ℕ) : ℤ) by omega, ehi, ok_bind]
  rw [show ((n : ℤ) - (ka : ℤ) + 1 - 1) = ((n - ka : ℕ) : ℤ) by omega, elo, ok_bind]
  have e50 : (50e3 : ℝ) = 50000 := by norm_num
  have hp := atten_pos (L := x2 - x1) (by linarith)
  simp only [rexp]
  rw [e50, pyDiv_ok hp.ne']
  refine ⟨_, rfl, fitAt f 0 (n - 1) 0, fitB f 0 (n - 1), hi, lo, ?_, ?_, ?_, rfl⟩
  · rw [← hn, ← hf]; exact fit_best (by omega)
  · rw [← hka, ← hR]; exact rhi
  · rw [← hka, ← hn, ← hR]; exact rlo

/-! ### order statistics under scaling -/

theorem IsRank.lt_length {a : List ℝ} {k : ℕ} {v : ℝ} (h : IsRank a k v) : k < a.length :=
  lt_of_lt_of_le h.2.2 (List.countP_le_length)

theorem IsRank.anti {a : List ℝ} {i k : ℕ} {v w : ℝ} (hik : i ≤ k) (hv : IsRank a i v) (hw : IsRank a k w) : w ≤ v := by
  by_contra hc
  have hc := not_le.1 hc
  have : a.countP (fun x => decide (w ≤ x)) ≤ a.countP (fun x => decide (v < x)) :=
    List.countP_mono_left (by intro x _ hx; simp at *; linarith)
  have := hv.2.1; have := hw.2.2; omega

theorem IsRank.scale_pos {a : List ℝ} {k : ℕ} {v u : ℝ} (hu : 0 < u) (h : IsRank a k v) : IsRank (a.map (u * ·)) k (u * v) := by
  refine ⟨List.mem_map.2 ⟨v, h.1, rfl⟩, ?_, ?_⟩
  · rw [List.countP_map]
    refine le_trans (le_of_eq ?_) h.2.1
    apply List.countP_congr
    intro x _
    simp [hu]
  · rw [List.countP_map]
    refine lt_of_lt_of_le h.2.2 (le_of_eq ?_)
    apply List.countP_congr
    intro x _
    simp [hu]

theorem IsRank.scale_neg {a : List ℝ} {k : ℕ} {v u : ℝ} (hu : u < 0) (h : IsRank a k v) :
    IsRank (a.map (u * ·)) (a.length - 1 - k) (u * v) := by
  have hk := IsRank.lt_length h
  have c1 := List.length_eq_countP_add_countP (fun x => decide (v ≤ x)) (l := a)
  have c2 := List.length_eq_countP_add_countP (fun x => decide (v < x)) (l := a)
  refine ⟨List.mem_map.2 ⟨v, h.1, rfl⟩, ?_, ?_⟩
  · rw [List.countP_map]
    have e : a.countP ((fun x => decide (u * v < x)) ∘ fun x => u * x) = a.countP (fun x => ¬ (decide (v ≤ x)) = true) := by
      apply List.countP_congr
      intro x _
      simp [hu]
    rw [e]
    have := h.2.2
    omega
  · rw [List.countP_map]
    have e : a.countP ((fun x => decide (u * v ≤ x)) ∘ fun x => u * x) = a.countP (fun x => ¬ (decide (v < x)) = true) := by
      apply List.countP_congr
      intro x _
      simp [hu]
    rw [e]
    have := h.2.1
    omega

theorem IsRank.scale_zero {a : List ℝ} {k i : ℕ} {v : ℝ} (h : IsRank a k v) (hi : i < a.length) : IsRank (a.map ((0 : ℝ) * ·)) i 0 := by
  refine ⟨List.mem_map.2 ⟨v, h.1, by simp⟩, ?_, ?_⟩
  · rw [List.countP_map]
    have : a.countP ((fun x => decide ((0 : ℝ) < x)) ∘ fun x => (0 : ℝ) * x) = 0 := by
      rw [List.countP_eq_zero]; intro x _; simp
    rw [this]; omega
  · rw [List.countP_map]
    have : a.countP ((fun x => decide ((0 : ℝ) ≤ x)) ∘ fun x => (0 : ℝ) * x) = a.length := by
      rw [List.countP_eq_length]; intro x _; simp
    rw [this]; exact hi

/-! ### the irregularity of affinely changed terrain -/

theorem interp_affine {z z' : ℕ → ℝ} {u c s t : ℝ} (h0 : 0 ≤ t) (hz : z' ⌊t⌋₊ = u * z ⌊t⌋₊ + (c + s * ⌊t⌋₊))
    (hz1 : Int.fract t ≠ 0 → z' (⌊t⌋₊ + 1) = u * z (⌊t⌋₊ + 1) + (c + s * (⌊t⌋₊ + 1 : ℕ))) :
    interp z' t = u * interp z t + (c + s * t) := by
  have e : t = ⌊t⌋₊ + Int.fract t := by
    rw [natCast_floor_eq_intCast_floor h0]; exact (Int.floor_add_fract t).symm
  unfold interp
  by_cases h : Int.fract t = 0
  · rw [h] at e ⊢
    rw [hz]
    have e' : (⌊t⌋₊ : ℝ) = t := by linarith
    rw [e']; ring
  · rw [hz1 h, hz]
    push_cast
    generalize Int.fract t = r at *
    have e' : (⌊t⌋₊ : ℝ) = t - r := by linarith
    rw [e']; ring

theorem irregularity_affine {z z' : ℕ → ℝ} {xa xb L v u c s : ℝ} {n : ℕ} (h0 : 0 ≤ xa) (h2 : 2 ≤ xb - xa) (hb : xb ≤ n)
    (hz : ∀ j, j ≤ n → z' j = u * z j + (c + s * j)) (h : IsIrregularity z xa xb L v) : IsIrregularity z' xa xb L (|u| * v) := by
  obtain ⟨c0, s0, hi, lo, hbest, hhi, hlo, hv⟩ := h
  obtain ⟨k4, k25⟩ := trimmed_bounds xa xb
  have hN : resampled xa xb = 10 * trimmed xa xb - 5 := rfl
  obtain ⟨N, hNN⟩ : ∃ N, N = resampled xa xb := ⟨_, rfl⟩
  have hN1 : (0 : ℝ) < (N : ℝ) - 1 := by
    have : (1 : ℝ) < N := by exact_mod_cast (by omega : 1 < N)
    linarith
  obtain ⟨d, hd⟩ : ∃ d, d = (xb - xa) / ((N : ℝ) - 1) := ⟨_, rfl⟩
  have hd0 : 0 ≤ d := by rw [hd]; exact div_nonneg (by linarith) hN1.le
  have hdN : ((N : ℝ) - 1) * d = xb - xa := by rw [hd]; field_simp
  -- the resampled terrain
  have hs : ∀ j, j ≤ N - 1 → resample z' xa xb j = u * resample z xa xb j + 1 * ((c + s * xa) + (s * d) * j) := by
    intro j hj
    have hjN : (j : ℝ) ≤ (N : ℝ) - 1 := by
      have : (j : ℝ) ≤ ((N - 1 : ℕ) : ℝ) := by exact_mod_cast hj
      rwa [Nat.cast_sub (by omega), Nat.cast_one] at this
    have ht0 : 0 ≤ xa + j * d := by positivity
    have htn : xa + j * d ≤ n := by nlinarith
    unfold resample
    rw [← hNN, ← hd]
    rw [interp_affine (u := u) (c := c) (s := s) (z := z) ht0]
    · ring
    · apply hz
      have := Nat.floor_le ht0
      exact_mod_cast this.trans htn
    · intro hfr
      apply hz
      have h1 := Nat.floor_le ht0
      have h2 : (⌊xa + j * d⌋₊ : ℝ) < n := by
        refine lt_of_lt_of_le (lt_of_le_of_ne h1 ?_) htn
        intro he
        apply hfr
        rw [← he, Int.fract_natCast]
      have : ⌊xa + j * d⌋₊ < n := by exact_mod_cast h2
      omega
  obtain ⟨bc, bs⟩ := best_unique (by omega) hbest
  rw [← hNN] at bc bs
  have hfit : ∀ t, fitAt (resample z' xa xb) 0 (N - 1) t = u * fitAt (resample z xa xb) 0 (N - 1) t + ((c + s * xa) + (s * d) * t) := by
    intro t
    rw [fitAt_congr (fun j _ hj => hs j (by omega)), fit_line (by omega), one_mul]
  have hfitB : fitB (resample z' xa xb) 0 (N - 1) = u * s0 + s * d := by
    have h1 := hfit 1
    have h0 := hfit 0
    rw [bs]
    unfold fitAt at h1 h0
    linarith
  refine ⟨u * c0 + (c + s * xa), u * s0 + s * d, if 0 < u then u * hi else u * lo, if 0 < u then u * lo else u * hi, ?_, ?_⟩
  · have : u * c0 + (c + s * xa) = fitAt (resample z' xa xb) 0 (N - 1) 0 := by rw [hfit 0, bc]; ring
    rw [this, ← hfitB, ← hNN]
    exact fit_best (by omega)
  have hres : residuals z' xa xb (u * c0 + (c + s * xa)) (u * s0 + s * d) = (residuals z xa xb c0 s0).map (u * ·) := by
    unfold residuals
    rw [List.map_map, ← hNN]
    apply List.map_congr_left
    intro j hj
    have hj := List.mem_range.1 hj
    rw [hs j (by omega)]
    simp only [Function.comp]
    ring
  have hlen : (residuals z xa xb c0 s0).length = N := by unfold residuals; rw [← hNN]; simp
  rw [hres]
  rcases lt_trichotomy u 0 with hu | hu | hu
  · rw [if_neg (by linarith), if_neg (by linarith), abs_of_neg hu]
    have r1 := IsRank.scale_neg hu hlo
    have r2 := IsRank.scale_neg hu hhi
    rw [hlen] at r1 r2
    rw [← hNN, show N - 1 - (N - trimmed xa xb) = trimmed xa xb - 1 by omega] at r1
    rw [show N - 1 - (trimmed xa xb - 1) = N - trimmed xa xb by omega, hNN] at r2
    refine ⟨r1, r2, ?_⟩
    rw [hv]; ring
  · subst hu
    rw [if_neg (lt_irrefl _), if_neg (lt_irrefl _), zero_mul, zero_mul]
    refine ⟨IsRank.scale_zero hhi (by omega), IsRank.scale_zero hhi (by omega), by simp⟩
  · rw [if_pos hu, if_pos hu, abs_of_pos hu]
    refine ⟨IsRank.scale_pos hu hhi, IsRank.scale_pos hu hlo, ?_⟩
    rw [hv]; ring

theorem irregularity_unique {z : ℕ → ℝ} {xa xb L v w : ℝ} (h : IsIrregularity z xa xb L v) (h' : IsIrregularity z xa xb L w) : v = w := by
  obtain ⟨c, s, hi, lo, hb, h1, h2, h3⟩ := h
  obtain ⟨c', s', hi', lo', hb', h1', h2', h3'⟩ := h'
  have hN : resampled xa xb = 10 * trimmed xa xb - 5 := rfl
  obtain ⟨k4, k25⟩ := trimmed_bounds xa xb
  obtain ⟨e1, e2⟩ := best_unique (by omega) hb
  obtain ⟨e3, e4⟩ := best_unique (by omega) hb'
  rw [e1, e2] at h1 h2
  rw [e3, e4] at h1' h2'
  rw [h3, h3', IsRank.unique h1 h1', IsRank.unique h2 h2']

theorem irregularity_nonneg {z : ℕ → ℝ} {xa xb L v : ℝ} (hL : 0 ≤ L) (h : IsIrregularity z xa xb L v) : 0 ≤ v := by
  obtain ⟨c, s, hi, lo, hb, h1, h2, h3⟩ := h
  have hN : resampled xa xb = 10 * trimmed xa xb - 5 := rfl
  obtain ⟨k4, k25⟩ := trimmed_bounds xa xb
  rw [h3]
  refine div_nonneg ?_ (atten_pos hL).le
  have := IsRank.anti (by omega) h1 h2
  linarith

end Itm
