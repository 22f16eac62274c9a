import Verif.Spec.Horizon
import Verif.Lemmas.Hzns
import Mathlib.Tactic.IntervalCases

/-! C85: what errors of the heights and a denser sampling do to the horizon angles. -/

namespace Itm.Props
open Itm Spec

/-! ### Errors of the heights -/

/-- The angles of two sets of candidates, each at most `b` over its distance apart. -/
theorem horizon_near {view view' pos : ℕ → ℝ} {far far' full b θ d θ' d' : ℝ} {m : ℕ} (h : IsHorizon view far pos full m θ d)
    (h' : IsHorizon view' far' pos full m θ' d') (hf : |far' - far| ≤ b / full) (hv : ∀ j, 1 ≤ j → j ≤ m → |view' j - view j| ≤ b / pos j) :
    θ ≤ θ' + b / d ∧ θ' ≤ θ + b / d' := by
  constructor
  · rcases h.attained with ⟨e1, e2⟩ | ⟨j, j1, j2, -, e1, e2, -⟩
    · rw [e1, e2]; linarith [h'.far_le, (abs_le.1 hf).1]
    · rw [e1, e2]; linarith [h'.view_le j j1 j2, (abs_le.1 (hv j j1 j2)).1]
  · rcases h'.attained with ⟨e1, e2⟩ | ⟨j, j1, j2, -, e1, e2, -⟩
    · rw [e1, e2]; linarith [h.far_le, (abs_le.1 hf).2]
    · rw [e1, e2]; linarith [h.view_le j j1 j2, (abs_le.1 (hv j j1 j2)).2]

theorem elevation_near {κ h h' s z z' a b : ℝ} (hs : 0 < s) (hh : |h' - h| ≤ a) (hz : |z' - z| ≤ b) :
    |elevation κ h' s z' - elevation κ h s z| ≤ (a + b) / s := by
  unfold elevation
  rw [show (z' - h') / s - κ / 2 * s - ((z - h) / s - κ / 2 * s) = ((z' - z) - (h' - h)) / s by ring, abs_div, abs_of_pos hs]
  gcongr
  have := abs_sub (z' - z) (h' - h)
  linarith

/-- **C85** (errors of the heights) If no height of the profile is off by more than `δ`, no horizon angle is off by more than `2δ` over the
distance of the horizon found – the one of either profile. -/
theorem C85_errors {p q : Pfl ℝ} {n : ℕ} {κ ha hb δ : ℝ} {the dl the' dl' : Pair ℝ} (hn : 1 ≤ n) (hnp : p.np = n) (hx : 0 < p.xi) (hl : n < p.z.length)
    (hnq : q.np = n) (hxq : q.xi = p.xi) (hlq : n < q.z.length) (hz : ∀ j, j ≤ n → |q.z.getD j 0 - p.z.getD j 0| ≤ δ)
    (h : hzns p (n * p.xi) ⟨ha, hb⟩ κ = .ok (the, dl)) (h' : hzns q (n * p.xi) ⟨ha, hb⟩ κ = .ok (the', dl')) :
    (the.x0 ≤ the'.x0 + 2 * δ / dl.x0 ∧ the'.x0 ≤ the.x0 + 2 * δ / dl'.x0) ∧
    (the.x1 ≤ the'.x1 + 2 * δ / dl.x1 ∧ the'.x1 ≤ the.x1 + 2 * δ / dl'.x1) := by
  obtain ⟨t, d, e, A, B⟩ := hzns_ok (hg := ⟨ha, hb⟩) (κ := κ) hn hnp hx hl
  rw [h, ok_inj, Prod.mk.injEq] at e
  obtain ⟨rfl, rfl⟩ := e
  obtain ⟨t, d, e, A', B'⟩ := hzns_ok (p := q) (hg := ⟨ha, hb⟩) (κ := κ) hn hnq (hxq ▸ hx) hlq
  rw [hxq, h', ok_inj, Prod.mk.injEq] at e
  obtain ⟨rfl, rfl⟩ := e
  rw [hxq] at A' B'
  have hn0 : (0 : ℝ) < n := by exact_mod_cast hn
  have hz0 : |q.h 0 - p.h 0| ≤ δ := hz 0 (by omega)
  have hzn : |q.h n - p.h n| ≤ δ := hz n le_rfl
  have e0 : |q.h 0 + ha - (p.h 0 + ha)| ≤ δ := by rw [add_sub_add_right_eq_sub]; exact hz0
  have en : |q.h n + hb - (p.h n + hb)| ≤ δ := by rw [add_sub_add_right_eq_sub]; exact hzn
  refine ⟨horizon_near A A' ?_ ?_, horizon_near B B' ?_ ?_⟩
  · rw [two_mul]; exact elevation_near (by positivity) e0 en
  · intro j j1 j2
    have : (0 : ℝ) < j := by exact_mod_cast j1
    unfold hzA
    rw [hxq, two_mul]
    exact elevation_near (by positivity) e0 (hz j (by omega))
  · rw [two_mul]; exact elevation_near (by positivity) en e0
  · intro j j1 j2
    have : (j : ℝ) < n := by exact_mod_cast (by omega : j < n)
    unfold hzB
    rw [hxq, two_mul]
    exact elevation_near (mul_pos (by linarith) hx) en (hz j (by omega))

/-! ### A denser sampling -/

/-- `q` samples the broken line through the points of `p` (`n` intervals) `k` times as densely. -/
structure Refined (p q : Pfl ℝ) (n k : ℕ) : Prop where
  k1 : 1 ≤ k
  np : q.np = ((n * k : ℕ) : ℤ)
  xi : q.xi = p.xi / k
  len : n * k < q.z.length
  z : ∀ j, j < n → ∀ i, i ≤ k → q.z.getD (j * k + i) 0 = p.z.getD j 0 + i / k * (p.z.getD (j + 1) 0 - p.z.getD j 0)

/-- Between two points seen under at most `M` the terrain is seen under at most `M` plus what the earth bulges over the interval. -/
theorem segment_view {κ h s₁ s₂ z₁ z₂ t M : ℝ} (hκ : 0 ≤ κ) (h0 : 0 ≤ s₁) (h12 : s₁ < s₂) (t0 : 0 ≤ t) (t1 : t ≤ 1)
    (hs : 0 < s₁ + t * (s₂ - s₁)) (m1 : 0 < s₁ → elevation κ h s₁ z₁ ≤ M) (m1' : s₁ = 0 → z₁ ≤ h) (m2 : elevation κ h s₂ z₂ ≤ M) :
    elevation κ h (s₁ + t * (s₂ - s₁)) (z₁ + t * (z₂ - z₁)) ≤ M + κ * (s₂ - s₁) ^ 2 / 8 / (s₁ + t * (s₂ - s₁)) := by
  have hs2 : 0 < s₂ := by linarith
  have a1 : z₁ - h ≤ (M + κ / 2 * s₁) * s₁ := by
    rcases h0.eq_or_lt with e | e
    · rw [← e]; simp; exact m1' e.symm
    · have := m1 e
      unfold elevation at this
      rw [← div_le_iff₀ e]; linarith
  have a2 : z₂ - h ≤ (M + κ / 2 * s₂) * s₂ := by
    unfold elevation at m2
    rw [← div_le_iff₀ hs2]; linarith
  generalize hS : s₁ + t * (s₂ - s₁) = s at *
  unfold elevation
  rw [show M + κ * (s₂ - s₁) ^ 2 / 8 / s = (M * s + κ * (s₂ - s₁) ^ 2 / 8) / s by field_simp, sub_le_iff_le_add,
    show (M * s + κ * (s₂ - s₁) ^ 2 / 8) / s + κ / 2 * s = (M * s + κ * (s₂ - s₁) ^ 2 / 8 + κ / 2 * s * s) / s by field_simp]
  gcongr
  have b1 := mul_le_mul_of_nonneg_left a1 (by linarith : 0 ≤ 1 - t)
  have b2 := mul_le_mul_of_nonneg_left a2 t0
  have b3 : t * (1 - t) ≤ 1 / 4 := by nlinarith [sq_nonneg (t - 1 / 2)]
  have b4 : κ / 2 * (t * (1 - t)) * (s₂ - s₁) ^ 2 ≤ κ / 2 * (1 / 4) * (s₂ - s₁) ^ 2 := by gcongr
  rw [← hS]
  nlinarith

theorem Refined.node {p q : Pfl ℝ} {n k : ℕ} (R : Refined p q n k) (hn : 1 ≤ n) {j : ℕ} (hj : j ≤ n) : q.h (j * k) = p.h j := by
  have hk : (k : ℝ) ≠ 0 := by have := R.k1; positivity
  rcases Nat.lt_or_ge j n with h | h
  · have := R.z j h 0 (by omega)
    unfold Pfl.h
    simpa using this
  · obtain rfl : j = n := by omega
    obtain ⟨m, rfl⟩ : ∃ m, j = m + 1 := ⟨j - 1, by omega⟩
    have := R.z m (by omega) k le_rfl
    rw [div_self hk] at this
    have e : (m + 1) * k = m * k + k := by ring
    unfold Pfl.h
    rw [e, this]; ring

/-- **C85** (sampling) Sampling the same terrain `k` times as densely never lowers a horizon angle, and raises it by no more than
`κ ξ² / 8` – the bulge of the earth over one interval of the coarse profile – over the distance of the new horizon. -/
theorem C85_sampling {p q : Pfl ℝ} {n k : ℕ} {κ ha hb : ℝ} {the dl the' dl' : Pair ℝ} (hn : 1 ≤ n) (hnp : p.np = n) (hx : 0 < p.xi) (hl : n < p.z.length)
    (R : Refined p q n k) (hκ : 0 ≤ κ) (h0 : 0 ≤ ha) (h1 : 0 ≤ hb)
    (h : hzns p (n * p.xi) ⟨ha, hb⟩ κ = .ok (the, dl)) (h' : hzns q (n * p.xi) ⟨ha, hb⟩ κ = .ok (the', dl')) :
    (the.x0 ≤ the'.x0 ∧ the'.x0 ≤ the.x0 + κ * p.xi ^ 2 / 8 / dl'.x0) ∧
    (the.x1 ≤ the'.x1 ∧ the'.x1 ≤ the.x1 + κ * p.xi ^ 2 / 8 / dl'.x1) := by
  have k0 : (0 : ℝ) < k := by exact_mod_cast R.k1
  have hn0 : (0 : ℝ) < n := by exact_mod_cast hn
  have hxq : 0 < q.xi := by rw [R.xi]; positivity
  have hfull : ((n * k : ℕ) : ℝ) * q.xi = n * p.xi := by rw [R.xi]; push_cast; field_simp
  obtain ⟨t, d, e, A, B⟩ := hzns_ok (hg := ⟨ha, hb⟩) (κ := κ) hn hnp hx hl
  rw [h, ok_inj, Prod.mk.injEq] at e
  obtain ⟨rfl, rfl⟩ := e
  obtain ⟨t, d, e, A', B'⟩ := hzns_ok (p := q) (n := n * k) (hg := ⟨ha, hb⟩) (κ := κ) (Nat.mul_pos hn R.k1) R.np hxq R.len
  rw [hfull, h', ok_inj, Prod.mk.injEq] at e
  obtain ⟨rfl, rfl⟩ := e
  have z0 : q.h 0 = p.h 0 := by have := R.node hn (j := 0) (by omega); simpa using this
  have zn : q.h (n * k) = p.h n := R.node hn le_rfl
  rw [hfull, z0, zn] at A' B'
  have pos0 : ∀ d : ℝ, 0 < d → 0 ≤ κ * p.xi ^ 2 / 8 / d := fun d hd => by positivity
  have hD : 0 < n * p.xi := by positivity
  -- the points of the coarse profile
  have nodeA : ∀ j : ℕ, j ≤ n → hzA q κ (p.h 0 + ha) (j * k) = hzA p κ (p.h 0 + ha) j := by
    intro j hj
    unfold hzA
    rw [R.node hn hj, R.xi]
    congr 1; push_cast; field_simp
  have nodeB : ∀ j : ℕ, j ≤ n → hzB q (n * k) κ (p.h n + hb) (j * k) = hzB p n κ (p.h n + hb) j := by
    intro j hj
    unfold hzB
    rw [R.node hn hj, R.xi]
    congr 1; push_cast; field_simp
  have hjk : ∀ j : ℕ, 1 ≤ j → j ≤ n - 1 → 1 ≤ j * k ∧ j * k ≤ n * k - 1 := by
    intro j j1 j2
    have a := Nat.mul_pos j1 R.k1
    have b : (j + 1) * k ≤ n * k := Nat.mul_le_mul_right k (by omega)
    have c := R.k1
    rw [Nat.add_mul, Nat.one_mul] at b
    omega
  have up : ∀ h s z c : ℝ, 0 < s → 0 ≤ c → elevation κ h s z ≤ elevation κ h s (z + c) := by
    intro h s z c hs hc
    unfold elevation
    have := div_le_div_of_nonneg_right (by linarith : z - h ≤ z + c - h) hs.le
    linarith
  -- a point of the dense profile
  have point : ∀ t : ℕ, t ≤ n * k - 1 → ∃ j i : ℕ, j < n ∧ i < k ∧ t = j * k + i := by
    intro t ht
    have hnk := Nat.mul_pos hn R.k1
    exact ⟨t / k, t % k, Nat.div_lt_of_lt_mul (by rw [Nat.mul_comm]; omega), Nat.mod_lt _ R.k1, by rw [Nat.mul_comm]; exact (Nat.div_add_mod t k).symm⟩
  refine ⟨⟨?_, ?_⟩, ?_, ?_⟩
  · rcases A.attained with ⟨e1, -⟩ | ⟨j, j1, j2, -, e1, -⟩
    · rw [e1]; exact A'.far_le
    · rw [e1, ← nodeA j (by omega)]
      exact A'.view_le _ (hjk j j1 j2).1 (hjk j j1 j2).2
  · rcases A'.attained with ⟨e1, e2⟩ | ⟨t, t1, t2, -, e1, e2, -⟩
    · rw [e1]; linarith [A.far_le, pos0 dl'.x0 (by rw [e2]; exact hD)]
    · obtain ⟨j, i, hj, hi, rfl⟩ := point t t2
      have hi' : (i : ℝ) / k ≤ 1 := by rw [div_le_one k0]; exact_mod_cast hi.le
      have hi0 : 0 ≤ (i : ℝ) / k := by positivity
      have es : ((j * k + i : ℕ) : ℝ) * q.xi = j * p.xi + i / k * (((j + 1 : ℕ) : ℝ) * p.xi - j * p.xi) := by
        rw [R.xi]; push_cast; field_simp; ring
      have hs : 0 < ((j * k + i : ℕ) : ℝ) * q.xi := by
        have : (0 : ℝ) < ((j * k + i : ℕ) : ℝ) := by exact_mod_cast t1
        positivity
      have hj0 : (0 : ℝ) < ((j + 1 : ℕ) : ℝ) := by positivity
      rw [e1, e2]
      unfold hzA
      rw [show q.h (j * k + i) = p.h j + i / k * (p.h (j + 1) - p.h j) from R.z j hj i hi.le]
      rw [es] at hs ⊢
      have hd : ((j + 1 : ℕ) : ℝ) * p.xi - j * p.xi = p.xi := by push_cast; ring
      have := segment_view (κ := κ) (h := p.h 0 + ha) (s₁ := j * p.xi) (s₂ := ((j + 1 : ℕ) : ℝ) * p.xi) (z₁ := p.h j) (z₂ := p.h (j + 1)) (t := i / k)
        (M := the.x0) hκ (by positivity) (by linarith) hi0 hi' hs ?_ ?_ ?_
      · rw [hd] at this ⊢; exact this
      · intro hpos
        have hj1 : 1 ≤ j := by
          by_contra hc
          obtain rfl : j = 0 := by omega
          simp at hpos
        exact A.view_le j hj1 (by omega)
      · intro hz
        have : (j : ℝ) = 0 := by
          rcases mul_eq_zero.1 hz with h | h
          · exact h
          · exact absurd h hx.ne'
        obtain rfl : j = 0 := by exact_mod_cast this
        linarith
      · rcases Nat.lt_or_ge (j + 1) n with hc | hc
        · exact A.view_le (j + 1) (by omega) (by omega)
        · obtain rfl : n = j + 1 := by omega
          exact (up _ _ _ _ (by positivity) h1).trans A.far_le
  · rcases B.attained with ⟨e1, -⟩ | ⟨j, j1, j2, -, e1, -⟩
    · rw [e1]; exact B'.far_le
    · rw [e1, ← nodeB j (by omega)]
      exact B'.view_le _ (hjk j j1 j2).1 (hjk j j1 j2).2
  · rcases B'.attained with ⟨e1, e2⟩ | ⟨t, t1, t2, -, e1, e2, -⟩
    · rw [e1]; linarith [B.far_le, pos0 dl'.x1 (by rw [e2]; exact hD)]
    · obtain ⟨j, i, hj, hi, rfl⟩ := point t t2
      have hi' : (i : ℝ) / k ≤ 1 := by rw [div_le_one k0]; exact_mod_cast hi.le
      have hi0 : 0 ≤ (i : ℝ) / k := by positivity
      have hjn : (j : ℝ) + 1 ≤ n := by exact_mod_cast hj
      have es : (((n * k : ℕ) : ℝ) - ((j * k + i : ℕ) : ℝ)) * q.xi =
          ((n : ℝ) - (j + 1 : ℕ)) * p.xi + (1 - i / k) * (((n : ℝ) - j) * p.xi - ((n : ℝ) - (j + 1 : ℕ)) * p.xi) := by
        rw [R.xi]; push_cast; field_simp; ring
      have hs : 0 < (((n * k : ℕ) : ℝ) - ((j * k + i : ℕ) : ℝ)) * q.xi := by
        have : ((j * k + i : ℕ) : ℝ) < ((n * k : ℕ) : ℝ) := by exact_mod_cast (by omega : j * k + i < n * k)
        exact mul_pos (by linarith) hxq
      rw [e1, e2]
      unfold hzB
      have ez : q.h (j * k + i) = p.h (j + 1) + (1 - i / k) * (p.h j - p.h (j + 1)) := by
        rw [show q.h (j * k + i) = p.h j + i / k * (p.h (j + 1) - p.h j) from R.z j hj i hi.le]; ring
      rw [ez]
      rw [es] at hs ⊢
      have hd : ((n : ℝ) - j) * p.xi - ((n : ℝ) - (j + 1 : ℕ)) * p.xi = p.xi := by push_cast; ring
      have hs1 : 0 ≤ ((n : ℝ) - (j + 1 : ℕ)) * p.xi := mul_nonneg (by push_cast; linarith) hx.le
      have := segment_view (κ := κ) (h := p.h n + hb) (s₁ := ((n : ℝ) - (j + 1 : ℕ)) * p.xi) (s₂ := ((n : ℝ) - j) * p.xi) (z₁ := p.h (j + 1)) (z₂ := p.h j)
        (t := 1 - i / k) (M := the.x1) hκ hs1 (by linarith) (by linarith) (by linarith) hs ?_ ?_ ?_
      · rw [hd] at this ⊢; exact this
      · intro hpos
        have hj1 : j + 1 ≤ n - 1 := by
          by_contra hc
          obtain rfl : n = j + 1 := by omega
          simp at hpos
        exact B.view_le (j + 1) (by omega) hj1
      · intro hz
        have hz' : (n : ℝ) - (j + 1 : ℕ) = 0 := by
          rcases mul_eq_zero.1 hz with h | h
          · exact h
          · exact absurd h hx.ne'
        have : n = j + 1 := by
          have : (n : ℝ) = ((j + 1 : ℕ) : ℝ) := by linarith
          exact_mod_cast this
        subst this
        linarith
      · rcases Nat.lt_or_ge 0 j with hc | hc
        · exact B.view_le j hc (by omega)
        · obtain rfl : j = 0 := by omega
          have := (up (p.h n + hb) _ (p.h 0) ha hD h0).trans B.far_le
          simpa using this

/-- A hill of 50 m sampled every kilometre and every half kilometre. -/
noncomputable def hill : Pfl ℝ := { np := 2, xi := 1000, z := [0, 50, 0] }
noncomputable def hillDense : Pfl ℝ := { np := 4, xi := 500, z := [0, 25, 50, 25, 0] }

theorem hill_refined : Refined hill hillDense 2 2 where
  k1 := by norm_num
  np := by norm_num [hillDense]
  xi := by norm_num [hill, hillDense]
  len := by simp [hillDense]
  z := by
    intro j hj i hi
    interval_cases j <;> interval_cases i <;> norm_num [hill, hillDense]

/-- Antennas of 10 m on an earth of 8500 km: both runs are answered, and C85 applies. -/
example : ∃ the dl the' dl' : Pair ℝ, hzns hill 2000 ⟨10, 10⟩ 1.17e-7 = .ok (the, dl) ∧ hzns hillDense 2000 ⟨10, 10⟩ 1.17e-7 = .ok (the', dl') ∧
    the.x0 ≤ the'.x0 ∧ the'.x0 ≤ the.x0 + 1.17e-7 * 1000 ^ 2 / 8 / dl'.x0 := by
  obtain ⟨the, dl, e, -⟩ := hzns_ok (p := hill) (n := 2) (hg := ⟨10, 10⟩) (κ := 1.17e-7) (by norm_num) rfl (by norm_num [hill]) (by simp [hill])
  obtain ⟨the', dl', e', -⟩ := hzns_ok (p := hillDense) (n := 4) (hg := ⟨10, 10⟩) (κ := 1.17e-7) (by norm_num) rfl (by norm_num [hillDense]) (by simp [hillDense])
  have f : ((2 : ℕ) : ℝ) * hill.xi = 2000 := by norm_num [hill]
  have f' : ((4 : ℕ) : ℝ) * hillDense.xi = 2000 := by norm_num [hillDense]
  rw [f'] at e'
  have := (C85_sampling (by norm_num) rfl (by norm_num [hill]) (by simp [hill]) hill_refined (by norm_num) (by norm_num) (by norm_num) e (by rw [f]; exact e')).1
  rw [f] at e
  exact ⟨the, dl, the', dl', e, e', this.1, this.2⟩

end Itm.Props
