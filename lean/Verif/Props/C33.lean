import Verif.Lemmas.Zlsq

/-! C33, C34: the least-squares line `zlsq1`. -/

namespace Itm.Props
open Itm Itm.Spec

/-- Index of the first and last sample of a window inside the profile. -/
theorem win_inside {p : Pfl ℝ} {x1 x2 : ℝ} (hx : 0 < p.xi) (h1 : 0 ≤ x1) (h2 : x2 ≤ p.np * p.xi) :
    winA p x1 = ⌊x1 / p.xi⌋ ∧ winB p x2 = ⌈x2 / p.xi⌉ := by
  constructor
  · unfold winA; rw [max_eq_left (by positivity)]
  · unfold winB; rw [min_eq_right]
    refine Int.ceil_le.2 ?_
    rw [div_le_iff₀ hx]; exact h2

/-- **C33** For a window `0 ≤ x1`, `x2 ≤ length` that contains at least one interval (samples `a = ⌊x1/xi⌋` to
`b = ⌈x2/xi⌉`, `a < b`), `zlsq1` returns the values at the two ends of the profile of the least-squares line. -/
theorem C33_least_squares {p : Pfl ℝ} {x1 x2 : ℝ} {a b : ℕ} (hx : 0 < p.xi) (hl : p.np < p.z.length) (h1 : 0 ≤ x1)
    (h2 : x2 ≤ p.np * p.xi) (ha : ⌊x1 / p.xi⌋ = a) (hb : ⌈x2 / p.xi⌉ = b) (hab : a < b) :
    ∃ c s, zlsq1 p x1 x2 = .ok (c, c + s * p.np) ∧ BestLine (fun j => p.z.getD j 0) a (b - a) c s := by
  obtain ⟨wa, wb⟩ := win_inside hx h1 h2
  have h := zlsq1_ok (x1 := x1) (x2 := x2) hx hl (by rw [wa, wb, ha, hb]; exact_mod_cast hab)
  rw [wa, wb, ha, hb] at h
  have e1 : ((a : ℤ)).toNat = a := by omega
  have e2 : ((b : ℤ) - a).toNat = b - a := by omega
  rw [e1, e2] at h
  refine ⟨_, fitB p.h a (b - a), h.trans ?_, fit_best (by omega)⟩
  congr 2
  change fitAt p.h a (b - a) p.np = fitAt p.h a (b - a) 0 + fitB p.h a (b - a) * p.np
  unfold fitAt; ring

/-- **C33** The least-squares line is unique, so the theorem above determines the result. -/
theorem C33_unique {z : ℕ → ℝ} {a m : ℕ} {c s c' s' : ℝ} (hm : 0 < m) (h : BestLine z a m c s) (h' : BestLine z a m c' s') :
    c = c' ∧ s = s' := by
  obtain ⟨e1, e2⟩ := best_unique hm h
  obtain ⟨e3, e4⟩ := best_unique hm h'
  exact ⟨e1.trans e3.symm, e2.trans e4.symm⟩

/-- **C33** Scaling the heights and adding a straight line does the same to the fitted line. -/
theorem C33_affine {p q : Pfl ℝ} {x1 x2 u c s z0 zn : ℝ} (hx : 0 < p.xi) (hl : p.np < p.z.length) (h1 : 0 ≤ x1)
    (h2 : x2 ≤ p.np * p.xi) (hab : ⌊x1 / p.xi⌋ < ⌈x2 / p.xi⌉) (hnp : q.np = p.np) (hxi : q.xi = p.xi) (hlen : q.z.length = p.z.length)
    (hz : ∀ j, j < p.z.length → q.z.getD j 0 = u * p.z.getD j 0 + (c + s * j)) (h : zlsq1 p x1 x2 = .ok (z0, zn)) :
    zlsq1 q x1 x2 = .ok (u * z0 + c, u * zn + (c + s * p.np)) := by
  obtain ⟨wa, wb⟩ := win_inside hx h1 h2
  obtain ⟨wa', wb'⟩ := win_inside (p := q) (x2 := x2) (by rw [hxi]; exact hx) h1 (by rw [hnp, hxi]; exact h2)
  rw [hxi] at wa' wb'
  have hp := zlsq1_ok (x1 := x1) (x2 := x2) hx hl (by rw [wa, wb]; exact hab)
  have hq := zlsq1_ok (p := q) (x1 := x1) (x2 := x2) (by rw [hxi]; exact hx) (by rw [hnp, hlen]; exact hl) (by rw [wa', wb']; exact hab)
  rw [wa, wb] at hp
  rw [wa', wb', hnp] at hq
  rw [hp, ok_inj, Prod.mk.injEq] at h
  have ha0 : 0 ≤ ⌊x1 / p.xi⌋ := Int.floor_nonneg.2 (by positivity)
  have hbn : ⌈x2 / p.xi⌉ ≤ p.np := by
    refine Int.ceil_le.2 ?_
    rw [div_le_iff₀ hx]; exact h2
  have hfit : ∀ t, fitAt q.h ⌊x1 / p.xi⌋.toNat (⌈x2 / p.xi⌉ - ⌊x1 / p.xi⌋).toNat t =
      u * fitAt p.h ⌊x1 / p.xi⌋.toNat (⌈x2 / p.xi⌉ - ⌊x1 / p.xi⌋).toNat t + (c + s * t) := by
    intro t
    have e : ∀ j, ⌊x1 / p.xi⌋.toNat ≤ j → j ≤ ⌊x1 / p.xi⌋.toNat + (⌈x2 / p.xi⌉ - ⌊x1 / p.xi⌋).toNat →
        q.h j = u * p.h j + 1 * (c + s * j) := by
      intro j _ hj
      rw [one_mul]; exact hz j (by omega)
    have := fit_line (z := p.h) (a := ⌊x1 / p.xi⌋.toNat) (m := (⌈x2 / p.xi⌉ - ⌊x1 / p.xi⌋).toNat) (by omega) u 1 c s t
    rw [one_mul] at this
    rw [← this]
    unfold fitAt fitA fitB
    rw [trap_congr e, trap_congr (f := fun j => q.h j * _) (g := fun j => (u * p.h j + 1 * (c + s * j)) * _) (fun j h1 h2 => by rw [e j h1 h2])]
  rw [hq, hfit, hfit, h.1, h.2, mul_zero, add_zero]

/-- **C33** Every straight-line profile is reproduced exactly. -/
theorem C33_straight {p : Pfl ℝ} {x1 x2 c s : ℝ} (hx : 0 < p.xi) (hl : p.np < p.z.length) (h1 : 0 ≤ x1)
    (h2 : x2 ≤ p.np * p.xi) (hab : ⌊x1 / p.xi⌋ < ⌈x2 / p.xi⌉) (hz : ∀ j, j < p.z.length → p.z.getD j 0 = c + s * j) :
    zlsq1 p x1 x2 = .ok (c, c + s * p.np) := by
  obtain ⟨wa, wb⟩ := win_inside hx h1 h2
  have hp := zlsq1_ok (x1 := x1) (x2 := x2) hx hl (by rw [wa, wb]; exact hab)
  have := C33_affine (p := p) (q := p) (u := 0) (c := c) (s := s) hx hl h1 h2 hab rfl rfl rfl
    (fun j hj => by rw [zero_mul, zero_add]; exact hz j hj) hp
  rw [this]; congr 2 <;> ring

/-- A four-sample profile and the window from 1 to 3 (samples 1, 2, 3). -/
example : ∃ c s, zlsq1 (⟨3, 1, [0, 1, 0, 2]⟩ : Pfl ℝ) 1 3 = .ok (c, c + s * (3 : ℤ)) ∧ BestLine (fun j => [0, 1, 0, 2].getD j 0) 1 (3 - 1) c s :=
  C33_least_squares (p := ⟨3, 1, [0, 1, 0, 2]⟩) (a := 1) (b := 3) (by norm_num) (by norm_num) (by norm_num) (by norm_num) (by norm_num) (by norm_num)
    (by norm_num)

/-! ### C34 -/

/-- **C34** (what holds) A window inside the profile is accepted unless it is a single sample point: no exception
whenever `⌊x1/xi⌋ < ⌈x2/xi⌉`, in particular for `x1 < x2`, however short. Full statement: also for `x1 = x2`; false, see
`C34_refuted`. -/
theorem C34_accepts_partial {p : Pfl ℝ} {x1 x2 : ℝ} (hx : 0 < p.xi) (hl : p.np < p.z.length) (h1 : 0 ≤ x1) (h12 : x1 ≤ x2)
    (h2 : x2 ≤ p.np * p.xi) (hne : ¬ (x1 = x2 ∧ ∃ k : ℤ, x1 = k * p.xi)) : ∃ r, zlsq1 p x1 x2 = .ok r := by
  obtain ⟨wa, wb⟩ := win_inside hx h1 h2
  refine ⟨_, zlsq1_ok (x1 := x1) (x2 := x2) hx hl ?_⟩
  rw [wa, wb]
  have hd : x1 / p.xi ≤ x2 / p.xi := div_le_div_of_nonneg_right h12 hx.le
  by_contra hc
  have hc := not_lt.1 hc
  have l1 := Int.floor_le (x1 / p.xi)
  have l2 := Int.le_ceil (x2 / p.xi)
  have l3 : ((⌈x2 / p.xi⌉ : ℤ) : ℝ) ≤ ((⌊x1 / p.xi⌋ : ℤ) : ℝ) := by exact_mod_cast hc
  have e1 : x1 / p.xi = ((⌊x1 / p.xi⌋ : ℤ) : ℝ) := by linarith
  have e2 : x1 / p.xi = x2 / p.xi := by linarith
  refine hne ⟨?_, ⌊x1 / p.xi⌋, ?_⟩
  · rw [div_eq_div_iff hx.ne' hx.ne'] at e2
    exact mul_right_cancel₀ hx.ne' e2
  · rw [← e1]; field_simp

/-- **C34** (refuted) A window that is a single sample point other than the first raises `ZeroDivisionError`, for every profile. -/
theorem C34_refuted {p : Pfl ℝ} {k : ℕ} (hx : 0 < p.xi) (hl : p.np < p.z.length) (h1 : 1 ≤ k) (hk : (k : ℤ) ≤ p.np) :
    zlsq1 p (k * p.xi) (k * p.xi) = .error .zeroDivision := by
  have hkr : (k : ℝ) ≤ p.np := by exact_mod_cast hk
  obtain ⟨wa, wb⟩ := win_inside (p := p) (x1 := k * p.xi) (x2 := k * p.xi) hx (by positivity) (mul_le_mul_of_nonneg_right hkr hx.le)
  have e : (k : ℝ) * p.xi / p.xi = ((k : ℤ) : ℝ) := by push_cast; field_simp
  rw [e, Int.floor_intCast] at wa
  rw [e, Int.ceil_intCast] at wb
  unfold zlsq1
  rw [zlsqWindow_ok hx.ne', wa, wb, if_pos le_rfl, ok_bind]
  dsimp only
  have e1 : max ((k : ℤ) - 1) 0 = ((k - 1 : ℕ) : ℤ) := by omega
  have e2 : p.np - max (p.np - k + 1) 0 = ((k - 1 : ℕ) : ℤ) := by omega
  rw [e1, e2]
  unfold zlsqFit
  dsimp only
  rw [Pfl.get_ok (by omega), ok_bind, ok_bind, sub_self, show ((0 : ℤ) - 1).toNat = 0 by decide]
  simp only [zlsqLoop, pure_bind']
  unfold pyDiv
  rw [if_pos]
  · rfl
  · rw [pyEq_real]; norm_num

/-- **C34** (refuted) At the first sample the fit silently runs over the interval from -1 to 0: it reads the sample spacing
`pfl[1]` as if it were a height. -/
theorem C34_reads_spacing {p : Pfl ℝ} (hx : 0 < p.xi) (hl : p.np < p.z.length) (hn : 0 ≤ p.np) :
    zlsq1 p 0 0 = .ok (-(p.z.getD 0 0), -(p.z.getD 0 0) - p.np * (p.z.getD 0 0 - p.xi)) := by
  obtain ⟨wa, wb⟩ := win_inside (p := p) (x1 := 0) (x2 := 0) hx le_rfl (by
    have : (0 : ℝ) ≤ p.np := by exact_mod_cast hn
    positivity)
  rw [zero_div, Int.floor_zero] at wa
  rw [zero_div, Int.ceil_zero] at wb
  unfold zlsq1
  rw [zlsqWindow_ok hx.ne', wa, wb, if_pos le_rfl, ok_bind]
  dsimp only
  have e1 : max ((0 : ℤ) - 1) 0 = ((0 : ℕ) : ℤ) := by omega
  have e2 : p.np - max (p.np - 0 + 1) 0 = -1 := by omega
  rw [e1, e2]
  unfold zlsqFit
  dsimp only
  have hg : p.get (-1 + 2) = .ok p.xi := rfl
  rw [Pfl.get_ok (by omega), ok_bind, hg, ok_bind, show ((-1 : ℤ) - ((0 : ℕ) : ℤ) - 1).toNat = 0 by decide]
  simp only [zlsqLoop, pure_ok, ok_bind]
  rw [if_neg (by norm_num)]
  have e5 : (0.5 : ℝ) = 1 / 2 := by norm_num
  have e12 : (12.0 : ℝ) = 12 := by norm_num
  simp only [rofInt, e5, e12]
  rw [pyDiv_ok (by norm_num), ok_bind]
  change Except.ok _ = Except.ok _
  unfold Pfl.h
  congr 2
  · push_cast; ring
  · push_cast; ring

/-- **C34** So exactly the windows that are one sample point other than the first raise. -/
theorem C34_raises_iff {p : Pfl ℝ} {x1 x2 : ℝ} (hx : 0 < p.xi) (hl : p.np < p.z.length) (h1 : 0 ≤ x1) (h12 : x1 ≤ x2) (h2 : x2 ≤ p.np * p.xi) :
    (∃ e, zlsq1 p x1 x2 = .error e) ↔ x1 = x2 ∧ ∃ k : ℕ, 1 ≤ k ∧ x1 = k * p.xi := by
  constructor
  · rintro ⟨e, he⟩
    by_contra hc
    by_cases hne : x1 = x2 ∧ ∃ k : ℤ, x1 = k * p.xi
    · obtain ⟨rfl, k, rfl⟩ := hne
      have k0 : 0 ≤ k := by
        have : (0 : ℝ) ≤ k := nonneg_of_mul_nonneg_left h1 hx
        exact_mod_cast this
      lift k to ℕ using k0
      rcases Nat.eq_zero_or_pos k with rfl | hk
      · have hn : 0 ≤ p.np := by
          have : (0 : ℝ) ≤ p.np := nonneg_of_mul_nonneg_left (h1.trans h2) hx
          exact_mod_cast this
        have := C34_reads_spacing hx hl hn
        simp only [Nat.cast_zero, Int.cast_zero, zero_mul] at he
        rw [this] at he
        exact nomatch he
      · exact hc ⟨rfl, k, hk, by push_cast; rfl⟩
    · obtain ⟨r, hr⟩ := C34_accepts_partial hx hl h1 h12 h2 hne
      rw [hr] at he
      exact nomatch he
  · rintro ⟨rfl, k, hk, rfl⟩
    refine ⟨_, C34_refuted hx hl hk ?_⟩
    have : (k : ℝ) ≤ p.np := le_of_mul_le_mul_right h2 hx
    exact_mod_cast this

example : ¬ ∃ e, zlsq1 (⟨3, 1, [0, 1, 0, 2]⟩ : Pfl ℝ) 1 1.25 = .error e := by
  rw [C34_raises_iff (p := ⟨3, 1, [0, 1, 0, 2]⟩) (by norm_num) (by norm_num) (by norm_num) (by norm_num) (by norm_num)]
  norm_num

example : zlsq1 (⟨3, 1, [0, 1, 0, 2]⟩ : Pfl ℝ) ((2 : ℕ) * 1) ((2 : ℕ) * 1) = .error .zeroDivision :=
  C34_refuted (p := ⟨3, 1, [0, 1, 0, 2]⟩) (k := 2) (by norm_num) (by norm_num) (by norm_num) (by norm_num)

/-- A window strictly inside one sample interval is accepted. -/
example : ∃ r, zlsq1 (⟨3, 1, [0, 1, 0, 2]⟩ : Pfl ℝ) 1.25 1.5 = .ok r :=
  C34_accepts_partial (p := ⟨3, 1, [0, 1, 0, 2]⟩) (by norm_num) (by norm_num) (by norm_num) (by norm_num) (by norm_num) (by norm_num)

end Itm.Props
