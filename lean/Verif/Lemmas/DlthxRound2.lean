import Verif.Lemmas.DlthxRound
import Verif.Props.C86

/-! `dlthx` in a rounding arithmetic: the whole function. -/

namespace Itm
open Itm.Spec Itm.Props
variable {α : Type} [PyNum α]

/-- A window that rounding cannot tell from the given one and in which the computed number of discarded values is exact. -/
theorem window_choice {n : ℕ} {u0 v0 t' : ℝ} (hn : 2 ≤ n) (h0 : 0 ≤ u0) (hv : v0 ≤ n) (h2 : 2 - 2e-12 ≤ v0 - u0) (ht : |t' - (v0 - u0)| ≤ 5e-12) :
    ∃ u v : ℝ, 0 ≤ u ∧ v ≤ n ∧ 2 ≤ v - u ∧ |u - u0| ≤ 5e-12 ∧ |(v - u) - (v0 - u0)| ≤ 5e-12 ∧ trimmed u v = min (max 4 ⌊(t' + 8) / 10⌋₊) 25 := by
  have hnR : (2 : ℝ) ≤ n := by exact_mod_cast hn
  rw [abs_le] at ht
  obtain ⟨t'', e1, e2, e3, e4⟩ : ∃ t'' : ℝ, 2 ≤ t'' ∧ t'' ≤ n ∧ |t'' - (v0 - u0)| ≤ 5e-12 ∧
      min (max 4 ⌊(t'' + 8) / 10⌋₊) 25 = min (max 4 ⌊(t' + 8) / 10⌋₊) 25 := by
    rcases lt_or_ge t' 2 with c | c
    · refine ⟨2, le_rfl, hnR, by rw [abs_le]; norm_num at *; constructor <;> linarith, ?_⟩
      have a1 : ⌊((2 : ℝ) + 8) / 10⌋₊ ≤ 1 := by norm_num
      have a2 : ⌊(t' + 8) / 10⌋₊ ≤ 1 := (Nat.floor_mono (by linarith)).trans a1
      omega
    · rcases le_or_gt t' n with c' | c'
      · exact ⟨t', c, c', abs_le.2 ht, rfl⟩
      · refine ⟨n, hnR, le_rfl, by rw [abs_le]; norm_num at *; constructor <;> linarith, ?_⟩
        have : ⌊((n : ℝ) + 8) / 10⌋₊ = ⌊(t' + 8) / 10⌋₊ := by
          have k1 := Nat.floor_le (show 0 ≤ (t' + 8) / 10 by linarith)
          have k2 := Nat.lt_floor_add_one ((t' + 8) / 10)
          generalize ⌊(t' + 8) / 10⌋₊ = K at *
          rw [Nat.floor_eq_iff (by linarith)]
          refine ⟨?_, by linarith⟩
          have : (10 * K : ℝ) < (n + 9 : ℕ) := by push_cast; norm_num at *; linarith
          have : 10 * K < n + 9 := by exact_mod_cast this
          have : ((10 * K : ℕ) : ℝ) ≤ ((n + 8 : ℕ) : ℝ) := by exact_mod_cast (by omega : 10 * K ≤ n + 8)
          push_cast at this
          linarith
        rw [this]
  rw [abs_le] at e3
  refine ⟨min u0 (n - t''), min u0 (n - t'') + t'', le_min h0 (by linarith), by linarith [min_le_right u0 (n - t'')], by linarith, ?_, ?_, ?_⟩
  · rw [abs_le]
    constructor
    · have : u0 - 5e-12 ≤ min u0 (n - t'') := le_min (by norm_num) (by linarith [e3.1, e3.2])
      linarith
    · have := min_le_left u0 (n - t'')
      have : (0 : ℝ) ≤ 5e-12 := by norm_num
      linarith
  · rw [add_sub_cancel_left]; exact abs_le.2 e3
  · unfold trimmed
    rw [add_sub_cancel_left]; exact e4

/-- The factor for the length of the window. -/
theorem atten_round (R : Rounding α) {x1 x2 : α} (f1 : R.fin x1) (f2 : R.fin x2) (h12 : R.val x1 ≤ R.val x2) (h1 : 0 ≤ R.val x1) (h2 : R.val x2 ≤ 4e6) :
    Near R (1.0 - 0.8 * PyNum.exp (-(x2 - x1) / 50e3)) (1 - 0.8 * Real.exp (-(R.val x2 - R.val x1) / 50000)) 1e-12 := by
  obtain ⟨L, hL⟩ : ∃ L, L = R.val x2 - R.val x1 := ⟨_, rfl⟩
  have L0 : 0 ≤ L := by linarith
  have L1 : L ≤ 4e6 := by linarith
  rw [← hL]
  have nL : Near R (x2 - x1) L 4.1e-9 := by
    rw [hL]
    exact (Near.self f2).sub (Near.self f1) (M := 4e6) (by rw [← hL, abs_of_nonneg L0]; linarith) (by norm_num) (by norm_num)
  have l5 := Near.lit_int R (m := 50) (s := false) (k := 3) 50000 (by norm_num) (by norm_num)
  have n5 : Near R (50e3 : α) 50000 0 := Near.of_eq l5.1 (l5.2.trans (by norm_num))
  have hq : |(-L) / 50000| ≤ 80 := by rw [abs_div, abs_neg, abs_of_nonneg L0]; norm_num at *; linarith
  obtain ⟨nq, -⟩ := nL.neg.div n5 (Q := 80) (m := 50000) (M := 81) (g := 1.7e-13) hq (by norm_num) (by norm_num) (by norm_num) (by norm_num) (by norm_num)
  have hE : Real.exp (-L / 50000) ≤ 1 := Real.exp_le_one_iff.2 (by linarith [div_nonneg L0 (by norm_num : (0:ℝ) ≤ 50000), neg_div 50000 L])
  have E0 := Real.exp_pos (-L / 50000)
  have nE := nq.exp hE (by norm_num) (by norm_num) (g := 4e-13) (by norm_num)
  have n8 : Near R (0.8 : α) 0.8 1e-15 := Near.lit R (M := 0.8) (by norm_num) (by norm_num) (by norm_num)
  have nm := n8.mul nE (X := 0.8) (Y := 1) (by norm_num) (by rw [abs_of_pos E0]; exact hE) (M := 0.9) (g := 4e-13) (by norm_num) (by norm_num) (by norm_num)
  obtain ⟨o1, o2⟩ := val_one R (α := α)
  refine (Near.of_eq o1 o2).sub nm (M := 1.1) ?_ (by norm_num) (by norm_num)
  generalize Real.exp (-L / 50000) = E at *
  rw [abs_of_nonneg (by norm_num; linarith)]
  norm_num; linarith

set_option maxHeartbeats 1000000 in
/-- From the resampled terrain to the answer. -/
theorem irr_round (R : Rounding α) {z : ℕ → ℝ} {n : ℕ} {u v : ℝ} {x1 x2 : α} {s : List α} (hz : ∀ j, j ≤ n → |z j| ≤ 1e4) (hu : 0 ≤ u) (hv : v ≤ n)
    (huv : 2 ≤ v - u) (f1 : R.fin x1) (f2 : R.fin x2) (h12 : R.val x1 ≤ R.val x2) (h1 : 0 ≤ R.val x1) (h2 : R.val x2 ≤ 4e6)
    (hl : s.length = resampled u v) (hs : ∀ i (h : i < s.length), Near R s[i] (resample z u v i) 4.3e-6) :
    ∃ w ω, (do
      let (xa, xb) ← zlsq1 { np := ((resampled u v - 1 : ℕ) : ℤ), xi := 1.0, z := s } 0.0 (PyNum.ofInt ((resampled u v - 1 : ℕ) : ℤ))
      let step ← (xb - xa) /! PyNum.ofInt ((resampled u v - 1 : ℕ) : ℤ)
      let s := dlthxDetrend step s xa
      let hi ← qtile s ((trimmed u v - 1 : ℕ) : ℤ)
      let lo ← qtile s ((resampled u v - trimmed u v : ℕ) : ℤ)
      (hi - lo) /! (1.0 - 0.8 * PyNum.exp (-(x2 - x1) / 50e3))) = .ok w ∧ IsIrregularity z u v (R.val x2 - R.val x1) ω ∧ Near R w ω 1.5e-4 ∧
      0 ≤ R.val w ∧ |ω| ≤ 3e5 := by
  obtain ⟨k4, k25⟩ := trimmed_bounds u v
  have hN : resampled u v = 10 * trimmed u v - 5 := rfl
  obtain ⟨N, eN⟩ : ∃ N, N = resampled u v := ⟨_, rfl⟩
  obtain ⟨ka, eka⟩ : ∃ ka, ka = trimmed u v := ⟨_, rfl⟩
  obtain ⟨m, em⟩ : ∃ m, m = resampled u v - 1 := ⟨_, rfl⟩
  rw [← em, ← eN, ← eka]
  rw [← eN, ← eka] at hN
  rw [← eka] at k4 k25
  rw [← eN] at em hl
  have eNm : N = m + 1 := by omega
  have m34 : 34 ≤ m := by omega
  have m244 : m ≤ 244 := by omega
  have m34R : (34 : ℝ) ≤ m := by exact_mod_cast m34
  have m244R : (m : ℝ) ≤ 244 := by exact_mod_cast m244
  have m0 : (0 : ℝ) < m := by linarith
  -- the exact resampled terrain
  obtain ⟨r, er⟩ : ∃ r, r = resample z u v := ⟨_, rfl⟩
  rw [← er] at hs
  have rb : ∀ i, i ≤ m → |r i| ≤ 1e4 := by
    intro i hi
    have hiR : (i : ℝ) ≤ m := by exact_mod_cast hi
    have eN1 : ((resampled u v : ℕ) : ℝ) - 1 = m := by rw [← eN, eNm]; push_cast; ring
    have a1 : (i : ℝ) * ((v - u) / m) ≤ v - u := by
      rw [mul_div_assoc', div_le_iff₀ m0, mul_comm]
      exact mul_le_mul_of_nonneg_left hiR (by linarith)
    have a0 : 0 ≤ (i : ℝ) * ((v - u) / m) := mul_nonneg (Nat.cast_nonneg i) (div_nonneg (by linarith) m0.le)
    rw [er, abs_le]
    unfold resample
    rw [eN1]
    exact interp_mem (n := n) (by linarith) (by linarith) fun j hj => abs_le.1 (hz j hj)
  -- the computed one
  obtain ⟨q, eq⟩ : ∃ q : Pfl α, q = { np := (m : ℤ), xi := 1.0, z := s } := ⟨_, rfl⟩
  rw [← eq]
  have qnp : q.np = m := by rw [eq]
  have qz : q.z = s := by rw [eq]
  obtain ⟨o1, o2⟩ := val_one R (α := α)
  have qxi : R.val q.xi = 1 := by rw [eq]; exact o2
  obtain ⟨f, ef⟩ : ∃ f, f = (valPfl R q).h := ⟨_, rfl⟩
  have fv : ∀ i (h : i < s.length), f i = R.val s[i] := by
    intro i h
    rw [ef, valPfl_h R (by rw [qz]; exact h)]
    simp only [qz]
  have fr : ∀ i, i ≤ m → |f i - r i| ≤ 4.3e-6 := fun i hi => by rw [fv i (by omega)]; exact (hs i (by omega)).err
  have fb : ∀ i, i ≤ m → |f i| ≤ 1.1e4 := by
    intro i hi
    have := abs_sub_abs_le_abs_sub (f i) (r i)
    have := fr i hi
    have := rb i hi
    norm_num at *; linarith
  have sfin : ∀ a ∈ s, R.fin a ∧ |R.val a| ≤ 1.1e4 := by
    intro a ha
    obtain ⟨i, hi, rfl⟩ := List.getElem_of_mem ha
    refine ⟨(hs i hi).fin, ?_⟩
    rw [← fv i hi]; exact fb i (by omega)
  obtain ⟨z0f, z0v⟩ := fin_zero R
  obtain ⟨imf, imv⟩ := val_nat R m (by omega) (α := α)
  -- the fitted line
  obtain ⟨u1, v1, z0, zn, b1, b2, b3, b4, b5, ez, n0, nn⟩ := zlsq1_round R (p := q) (x1 := 0.0) (x2 := PyNum.ofInt (m : ℤ)) (n := m) (Z := 1.1e4) qnp (by omega)
    (by rw [qz]; omega) (by rw [qz]; exact sfin) (by norm_num) (by norm_num) (by rw [eq]; exact o1) (by rw [qxi]; norm_num) z0f imf (by rw [z0v])
    (by rw [z0v, imv, qxi]; norm_num; linarith) (by rw [imv, qxi]; linarith)
  rw [z0v, qxi, zero_div, sub_zero] at b4
  rw [imv, qxi, div_one] at b5
  have hu1 : ⌊u1⌋₊ = 0 := by
    rw [Nat.floor_eq_zero]
    have := (abs_le.1 b4).2
    norm_num at this; linarith
  have hv1 : ⌈v1⌉₊ = m := by
    rw [Nat.ceil_eq_iff (by omega)]
    have := (abs_le.1 b5).1
    rw [Nat.cast_sub (by omega)]
    norm_num at this ⊢
    exact ⟨by linarith, b2⟩
  rw [hu1, hv1, Nat.sub_zero, ← ef] at n0 nn
  have hcut : 6e-14 * ((m : ℝ) * 1.1e4) ≤ 1.7e-7 := by norm_num; linarith
  have n0 := n0.mono hcut
  have nn := nn.mono hcut
  rw [ez, ok_bind]
  dsimp only
  have hm0 : 0 < m := by omega
  have Fb : ∀ t : ℝ, 0 ≤ t → t ≤ m → |fitAt f 0 m t| ≤ 2.2e4 := by
    intro t t0 t1
    refine (fit_small_inside (δ := 1.1e4) hm0 (by norm_num) (fun j _ hj => fb j (by omega)) (by simpa using t0) (by simpa using t1)).trans (by norm_num)
  have F0 := Fb 0 le_rfl m0.le
  have Fm := Fb m m0.le le_rfl
  have hB : (fitAt f 0 m m - fitAt f 0 m 0) / m = fitB f 0 m := by
    unfold fitAt
    rw [div_eq_iff m0.ne']; ring
  have bB : |fitB f 0 m| ≤ 1300 := by
    rw [← hB, abs_div, abs_of_pos m0, div_le_iff₀ m0]
    have := abs_sub (fitAt f 0 m m) (fitAt f 0 m 0)
    norm_num at F0 Fm; linarith
  have nd := nn.sub n0 (M := 4.5e4) (g := 3.41e-7) (by have := abs_sub (fitAt f 0 m m) (fitAt f 0 m 0); norm_num at *; linarith) (by norm_num) (by norm_num)
  obtain ⟨ns, hm0'⟩ := nd.div (Near.of_eq imf imv) (Q := 1300) (m := m) (M := 1400) (g := 3.41e-7 / m + 2e-12) (by rw [hB]; exact bB) (le_abs_self _) m0
    (by
      rw [mul_zero, add_zero, sub_zero]
      have : (3.41e-7 : ℝ) / m ≤ 1 := by rw [div_le_iff₀ m0]; norm_num; linarith
      linarith) (by norm_num) (by
      rw [mul_zero, add_zero, sub_zero]
      generalize (3.41e-7 : ℝ) / m = y
      norm_num; linarith)
  rw [hB] at ns
  rw [pyDiv_round imf hm0', ok_bind]
  obtain ⟨step, est⟩ : ∃ step, step = (zn - z0) / (PyNum.ofInt (m : ℤ) : α) := ⟨_, rfl⟩
  rw [← est] at ns ⊢
  have line : ∀ t : ℝ, fitAt f 0 m 0 + fitB f 0 m * t = fitAt f 0 m t := by intro t; unfold fitAt; ring
  obtain ⟨dl, dn⟩ := dlthxDetrend_round R ns (g := 6e-7) (by norm_num) s (fun a ha => ⟨(sfin a ha).1, (sfin a ha).2.trans (by norm_num)⟩) n0
    (fun i hi => by
      rcases Nat.lt_or_ge m i with c | c
      · have : i = m + 1 := by omega
        subst this
        have e : fitAt f 0 m 0 + fitB f 0 m * ((m + 1 : ℕ) : ℝ) = fitAt f 0 m m + fitB f 0 m := by rw [← line m]; push_cast; ring
        rw [e]
        have := abs_add_le (fitAt f 0 m m) (fitB f 0 m)
        norm_num at *; linarith
      · rw [line]
        refine (Fb i (Nat.cast_nonneg i) (by exact_mod_cast c)).trans (by norm_num))
    (by
      rw [hl, eNm]
      push_cast
      have : (3.41e-7 : ℝ) / m ≤ 3.41e-7 / 34 := div_le_div_of_nonneg_left (by norm_num) (by norm_num) m34R
      have e : ((m : ℝ) + 1) * (3.41e-7 / m + 2e-12 + 1.1e-10) = 3.41e-7 + 3.41e-7 / m + (m + 1) * 1.12e-10 := by
        have : (m : ℝ) * (3.41e-7 / m) = 3.41e-7 := mul_div_cancel₀ _ m0.ne'
        linear_combination this
      rw [e]
      generalize (3.41e-7 : ℝ) / m = y at *
      norm_num at *; linarith)
  obtain ⟨D, eD⟩ : ∃ D, D = dlthxDetrend step s z0 := ⟨_, rfl⟩
  rw [← eD] at dl dn ⊢
  -- deviations, computed and exact
  obtain ⟨ρ, eρ⟩ : ∃ ρ : ℕ → ℝ, ρ = fun i => r i - (fitAt r 0 m 0 + fitB r 0 m * i) := ⟨_, rfl⟩
  obtain ⟨g, eg⟩ : ∃ g : ℕ → ℝ, g = fun i => (D.map R.val).getD i 0 := ⟨_, rfl⟩
  have hDl : D.length = N := by rw [dl, hl]
  have gD : ∀ i (h : i < D.length), g i = R.val D[i] := by intro i h; rw [eg]; simp [List.getD, h]
  have dev : ∀ i, i < N → |g i - ρ i| ≤ 1.36e-5 := by
    intro i hi
    have a1 := (dn i (by omega) (by omega)).err
    rw [← gD i (by omega), ← fv i (by omega), line] at a1
    have a2 := fit_small_inside (e := fun j => f j - r j) (t := i) (a := 0) (m := m) (δ := 4.3e-6) hm0 (by norm_num) (fun j _ hj => fr j (by omega)) (by simp)
      (by have : (i : ℝ) ≤ m := by exact_mod_cast (by omega : i ≤ m)
          simpa using this)
    rw [fitAt_sub] at a2
    have a3 := fr i (by omega)
    have e : ρ i = r i - fitAt r 0 m i := by rw [eρ]; unfold fitAt; ring
    rw [e]
    rw [abs_le] at a1 a2 a3 ⊢
    norm_num at a1 a2 a3 ⊢
    constructor <;> linarith [a1.1, a1.2, a2.1, a2.2, a3.1, a3.2]
  have Dmap : D.map R.val = (List.range N).map g := by
    apply List.ext_getElem
    · simp [hDl]
    · intro i h1 h2
      have h1 : i < D.length := by simpa using h1
      rw [List.getElem_map, List.getElem_map, List.getElem_range, gD i h1]
  have Dfin : ∀ a ∈ D, R.fin a := by
    intro a ha
    obtain ⟨i, hi, rfl⟩ := List.getElem_of_mem ha
    exact (dn i (by omega) hi).fin
  obtain ⟨hi, ehi, fhi, rhi⟩ := qtile_round R Dfin (k := ka - 1) (by omega)
  obtain ⟨lo, elo, flo, rlo⟩ := qtile_round R Dfin (k := N - ka) (by omega)
  rw [ehi, ok_bind, elo, ok_bind]
  rw [Dmap] at rhi rlo
  obtain ⟨Hi, -, RHi⟩ := C01_qtile_rank ((List.range N).map ρ) (ka - 1) (by simp; omega)
  obtain ⟨Lo, -, RLo⟩ := C01_qtile_rank ((List.range N).map ρ) (N - ka) (by simp; omega)
  have nHi : Near R hi Hi 1.36e-5 := ⟨fhi, IsRank.near dev RHi rhi⟩
  have nLo : Near R lo Lo 1.36e-5 := ⟨flo, IsRank.near dev RLo rlo⟩
  have rhob : ∀ w ∈ (List.range N).map ρ, |w| ≤ 3e4 := by
    intro w hw
    obtain ⟨i, hi, rfl⟩ := List.mem_map.1 hw
    have hi := List.mem_range.1 hi
    have a1 := rb i (by omega)
    have a2 := fit_small_inside (e := r) (t := i) (a := 0) (m := m) (δ := 1e4) hm0 (by norm_num) (fun j _ hj => rb j (by omega)) (by simp)
      (by have : (i : ℝ) ≤ m := by exact_mod_cast (by omega : i ≤ m)
          simpa using this)
    have e : ρ i = r i - fitAt r 0 m i := by rw [eρ]; unfold fitAt; ring
    rw [e]
    refine (abs_sub _ _).trans ?_
    norm_num at *; linarith
  have bHi := rhob _ RHi.1
  have bLo := rhob _ RLo.1
  have bd : |Hi - Lo| ≤ 6e4 := (abs_sub _ _).trans (by norm_num at *; linarith)
  have nhl := nHi.sub nLo (M := 6.1e4) (g := 2.73e-5) (by norm_num at *; linarith) (by norm_num) (by norm_num)
  have nat := atten_round R f1 f2 h12 h1 h2
  obtain ⟨y, ey⟩ : ∃ y, y = 1 - 0.8 * Real.exp (-(R.val x2 - R.val x1) / 50000) := ⟨_, rfl⟩
  rw [← ey] at nat
  have y2 : 0.2 ≤ y := by
    have : Real.exp (-(R.val x2 - R.val x1) / 50000) ≤ 1 := Real.exp_le_one_iff.2 (div_nonpos_of_nonpos_of_nonneg (by linarith) (by norm_num))
    rw [ey]
    generalize Real.exp (-(R.val x2 - R.val x1) / 50000) = E at *
    norm_num; linarith
  have y0 : 0 < y := by norm_num at y2; linarith
  obtain ⟨nw, hy⟩ := nhl.div nat (Q := 3e5) (m := 0.2) (M := 3.1e5) (g := 1.5e-4)
    (by rw [abs_div, abs_of_pos y0, div_le_iff₀ y0]; norm_num at *; linarith) (by rw [abs_of_pos y0]; exact y2) (by norm_num) (by norm_num) (by norm_num)
    (by norm_num)
  have bω : |(Hi - Lo) / y| ≤ 3e5 := by rw [abs_div, abs_of_pos y0, div_le_iff₀ y0]; norm_num at *; linarith
  rw [pyDiv_round nat.fin hy]
  have order : R.val lo ≤ R.val hi := IsRank.anti (by omega) rhi rlo
  have dnn : 0 ≤ R.val (hi - lo) := by
    have b : |R.val hi - R.val lo| ≤ 1e100 := by
      have a1 := nHi.abs_val
      have a2 := nLo.abs_val
      have a3 := abs_sub (R.val hi) (R.val lo)
      norm_num at bHi bLo a1 a2 ⊢; linarith
    rw [(R.sub _ _ fhi flo (le_roundBig b)).2]
    exact rnd_nonneg R (by linarith)
  have ypos : 0 < R.val (1.0 - 0.8 * PyNum.exp (-(x2 - x1) / 50e3)) := by
    have := nat.ge
    norm_num at this y2; linarith
  have wnn : 0 ≤ R.val ((hi - lo) / (1.0 - 0.8 * PyNum.exp (-(x2 - x1) / 50e3))) := by
    refine val_div_nonneg nhl.fin nat.fin dnn ypos ?_
    have a1 := nhl.abs_val
    rw [abs_div, abs_of_pos ypos, div_le_iff₀ ypos]
    have := nat.ge
    norm_num at this y2 a1 bd ⊢; linarith
  refine ⟨_, _, rfl, ⟨fitAt r 0 m 0, fitB r 0 m, Hi, Lo, ?_, ?_, ?_, by rw [← ey]⟩, nw, wnn, bω⟩
  · rw [← er, ← eN, ← em]; exact fit_best hm0
  · unfold residuals; rw [← eN, ← eka, ← er, ← eρ]; exact RHi
  · unfold residuals; rw [← eN, ← eka, ← er, ← eρ]; exact RLo

theorem val_two (R : Rounding α) : R.fin (2.0 : α) ∧ R.val (2.0 : α) = 2 := by
  have := Near.lit_int R (m := 20) (s := true) (k := 1) 2 (by norm_num) (by norm_num)
  exact ⟨this.1, this.2.trans (by norm_num)⟩

set_option maxHeartbeats 1000000 in
/-- The whole function, for a choice of the window among those that rounding cannot tell apart. -/
theorem dlthx_round_at (R : Rounding α) {p : Pfl α} {x1 x2 : α} {n : ℕ} (hnp : p.np = n) (hn : n ≤ 1000) (hl : n < p.z.length)
    (hz : ∀ a ∈ p.z, R.fin a ∧ |R.val a| ≤ 1e4) (fi : R.fin p.xi) (hi : 0 < R.val p.xi) (f1 : R.fin x1) (f2 : R.fin x2) (h1 : 0 ≤ R.val x1)
    (h12 : R.val x1 ≤ R.val x2) (h2 : R.val x2 ≤ n * R.val p.xi) (h4 : R.val x2 ≤ 4e6) {T : ℝ → ℝ → Prop}
    (hT : ∀ u0 v0 t' : ℝ, 2 ≤ n → 0 ≤ u0 → v0 ≤ n → 2 - 2e-12 ≤ v0 - u0 → |t' - (v0 - u0)| ≤ 5e-12 → |u0 - R.val x1 / R.val p.xi| ≤ 1.1e-12 →
      |v0 - R.val x2 / R.val p.xi| ≤ 1.1e-12 →
      ∃ u v : ℝ, T u v ∧ 0 ≤ u ∧ v ≤ n ∧ 2 ≤ v - u ∧ |u - u0| ≤ 5e-12 ∧ |(v - u) - (v0 - u0)| ≤ 5e-12 ∧ trimmed u v = min (max 4 ⌊(t' + 8) / 10⌋₊) 25) :
    (dlthx p x1 x2 = .ok 0.0 ∧ R.val x2 / R.val p.xi - R.val x1 / R.val p.xi < 2 + 1e-11) ∨
    ∃ (u v ω : ℝ) (w : α), T u v ∧ 0 ≤ u ∧ v ≤ n ∧ 2 ≤ v - u ∧ |u - R.val x1 / R.val p.xi| ≤ 1e-11 ∧ |v - R.val x2 / R.val p.xi| ≤ 2e-11 ∧
      dlthx p x1 x2 = .ok w ∧ IsIrregularity (valPfl R p).h u v (R.val x2 - R.val x1) ω ∧ Near R w ω 1.5e-4 ∧ 0 ≤ R.val w ∧ |ω| ≤ 3e5 ∧
      2 - 1e-11 < R.val x2 / R.val p.xi - R.val x1 / R.val p.xi := by
  have hnR : (n : ℝ) ≤ 1000 := by exact_mod_cast hn
  obtain ⟨e1, fq1, a1, b1, c1⟩ := quot_round R hn f1 fi hi h1 (h12.trans h2)
  obtain ⟨e2, fq2, a2, b2, c2⟩ := quot_round R hn f2 fi hi (h1.trans h12) h2
  unfold dlthx
  rw [e1, ok_bind, e2, ok_bind]
  obtain ⟨X1, eX1⟩ : ∃ X, X = R.val x1 / R.val p.xi := ⟨_, rfl⟩
  obtain ⟨X2, eX2⟩ : ∃ X, X = R.val x2 / R.val p.xi := ⟨_, rfl⟩
  rw [← eX1] at c1
  rw [← eX2] at c2
  rw [← eX1, ← eX2] at hT ⊢
  obtain ⟨xa, exa⟩ : ∃ xa, xa = x1 / p.xi := ⟨_, rfl⟩
  obtain ⟨xb, exb⟩ : ∃ xb, xb = x2 / p.xi := ⟨_, rfl⟩
  rw [← exa] at fq1 a1 b1 c1 ⊢
  rw [← exb] at fq2 a2 b2 c2 ⊢
  clear eX1 eX2 exa exb e1 e2
  obtain ⟨u0, eu0⟩ : ∃ u0, u0 = R.val xa := ⟨_, rfl⟩
  obtain ⟨v0, ev0⟩ : ∃ v0, v0 = R.val xb := ⟨_, rfl⟩
  rw [← eu0] at a1 b1 c1
  rw [← ev0] at a2 b2 c2
  have na : Near R xa u0 0 := Near.of_eq fq1 eu0.symm
  have nb : Near R xb v0 0 := Near.of_eq fq2 ev0.symm
  have bt : |v0 - u0| ≤ 1000 := by rw [abs_le]; constructor <;> linarith
  have nW := nb.sub na (M := 1000) (g := 1.1e-12) (by linarith) (by norm_num) (by norm_num)
  obtain ⟨f2', v2'⟩ := val_two R (α := α)
  have c1' := c1
  have c2' := c2
  rw [abs_le] at c1 c2
  by_cases hc : (2.0 : α) ≤ xb - xa
  swap
  · left
    rw [if_neg hc]
    refine ⟨rfl, ?_⟩
    rw [R.le _ _ f2' nW.fin, v2'] at hc
    have := nW.ge
    norm_num at c1 c2 this hc ⊢
    linarith [c1.1, c1.2, c2.1, c2.2]
  · right
    rw [if_pos hc]
    rw [R.le _ _ f2' nW.fin, v2'] at hc
    have t2 : 2 - 2e-12 ≤ v0 - u0 := by have := nW.le; norm_num at this ⊢; linarith
    -- the number of discarded values
    have l8 := Near.lit_int R (m := 80) (s := true) (k := 1) 8 (by norm_num) (by norm_num)
    have n8 : Near R (8.0 : α) 8 0 := Near.of_eq l8.1 (l8.2.trans (by norm_num))
    have n1 : Near R (0.1 : α) 0.1 1.01e-16 := Near.lit R (M := 0.1) (by norm_num) (by norm_num) (by norm_num)
    have ns8 := nW.add n8 (M := 1008.1) (g := 2.2e-12) (by rw [abs_le] at bt; rw [abs_of_nonneg (by norm_num at t2; linarith)]; norm_num; linarith [bt.2]) (by norm_num)
      (by norm_num)
    have ng := n1.mul ns8 (X := 0.1) (Y := 1008) (by norm_num) (by rw [abs_le] at bt; rw [abs_of_nonneg (by norm_num at t2; linarith)]; linarith [bt.2]) (M := 101)
      (g := 5e-13) (by norm_num) (by norm_num) (by norm_num)
    have g0 : 0 ≤ R.val (0.1 * (xb - xa + 8.0)) := by have := ng.ge; norm_num at this t2 ⊢; linarith
    have hn2 : 2 ≤ n := by
      have : (1 : ℝ) < n := by norm_num at t2; linarith
      have : 1 < n := by exact_mod_cast this
      omega
    obtain ⟨u, v, tuv, u_0, v_n, uv2, du, dt, etr⟩ := hT u0 v0 (10 * R.val (0.1 * (xb - xa + 8.0)) - 8) hn2 a1 b2 t2
      (by
        have := abs_le.1 ng.err
        norm_num at this ⊢
        rw [abs_le]
        constructor <;> linarith [this.1, this.2]) c1' c2'
    have eka : dlthxKa xa xb = ((trimmed u v : ℕ) : ℤ) := by
      unfold dlthxKa
      rw [pyInt_round ng.fin g0, etr, show (10 * R.val (0.1 * (xb - xa + 8.0)) - 8 + 8) / 10 = R.val (0.1 * (xb - xa + 8.0)) by ring,
        ← Int.natCast_floor_eq_floor g0]
      push_cast; rfl
    dsimp only
    rw [eka]
    obtain ⟨k4, k25⟩ := trimmed_bounds u v
    have hN : resampled u v = 10 * trimmed u v - 5 := rfl
    obtain ⟨N, eN⟩ : ∃ N, N = resampled u v := ⟨_, rfl⟩
    have en : (10 * ((trimmed u v : ℕ) : ℤ) - 5) = ((resampled u v : ℕ) : ℤ) := by omega
    have en1 : (((resampled u v : ℕ) : ℤ) - 1) = ((resampled u v - 1 : ℕ) : ℤ) := by omega
    have en2 : ((trimmed u v : ℕ) : ℤ) - 1 = ((trimmed u v - 1 : ℕ) : ℤ) := by omega
    have en3 : ((resampled u v : ℕ) : ℤ) - ((trimmed u v : ℕ) : ℤ) + 1 - 1 = ((resampled u v - trimmed u v : ℕ) : ℤ) := by omega
    rw [en, en1, en2, en3, Int.toNat_natCast]
    obtain ⟨m, em⟩ : ∃ m, m = resampled u v - 1 := ⟨_, rfl⟩
    have m34 : (34 : ℝ) ≤ m := by exact_mod_cast (by omega : 34 ≤ m)
    have m244 : (m : ℝ) ≤ 244 := by exact_mod_cast (by omega : m ≤ 244)
    have m0 : (0 : ℝ) < m := by linarith
    have eNm : resampled u v = m + 1 := by omega
    obtain ⟨imf, imv⟩ := val_nat R m (by omega) (α := α)
    obtain ⟨d, ed⟩ : ∃ d, d = (v - u) / m := ⟨_, rfl⟩
    have dm : m * d = v - u := by rw [ed, mul_div_cancel₀ _ m0.ne']
    have d0 : 0 ≤ d := by rw [ed]; exact div_nonneg (by linarith) m0.le
    have d30 : d ≤ 29.5 := by rw [ed, div_le_iff₀ m0]; norm_num; linarith
    -- the step
    have nW' : Near R (xb - xa) (v - u) 6.2e-12 := ⟨nW.fin, by
      have := nW.err
      rw [abs_le] at this dt ⊢
      norm_num at this dt ⊢
      constructor <;> linarith [this.1, this.2, dt.1, dt.2]⟩
    have s34 : (6.2e-12 : ℝ) / m ≤ 6.2e-12 / 34 := div_le_div_of_nonneg_left (by norm_num) (by norm_num) m34
    have sm : (m : ℝ) * (6.2e-12 / m) = 6.2e-12 := mul_div_cancel₀ _ m0.ne'
    obtain ⟨nst, hm0⟩ := nW'.div (Near.of_eq imf imv) (Q := 29.5) (m := m) (M := 29.6) (g := 6.2e-12 / m + 3e-14)
      (by rw [← ed, abs_of_nonneg d0]; exact d30) (le_abs_self _) m0
      (by rw [mul_zero, add_zero, sub_zero]; generalize (6.2e-12 : ℝ) / m = y at *; norm_num at *; linarith) (by norm_num)
      (by rw [mul_zero, add_zero, sub_zero]; generalize (6.2e-12 : ℝ) / m = y at *; norm_num; linarith)
    rw [← ed] at nst
    rw [← em, pyDiv_round imf hm0, ok_bind]
    have st0 : 0 ≤ R.val ((xb - xa) / (PyNum.ofInt (m : ℤ) : α)) := by
      have q0 : 0 ≤ R.val (xb - xa) / R.val (PyNum.ofInt (m : ℤ) : α) := div_nonneg (by linarith) (by rw [imv]; linarith)
      have qb : |R.val (xb - xa) / R.val (PyNum.ofInt (m : ℤ) : α)| ≤ 1e100 := by
        rw [abs_of_nonneg q0, imv, div_le_iff₀ m0]
        have := nW.le
        rw [abs_le] at bt
        norm_num at this ⊢; linarith [bt.2]
      rw [(R.div _ _ nW.fin imf hm0 (le_roundBig qb)).2]
      exact rnd_nonneg R q0
    obtain ⟨step, est⟩ : ∃ step, step = (xb - xa) / (PyNum.ofInt (m : ℤ) : α) := ⟨_, rfl⟩
    rw [← est] at nst st0 ⊢
    -- the first cell
    obtain ⟨o1, o2⟩ := val_one R (α := α)
    have nk := na.add (Near.of_eq o1 o2) (M := 1001) (g := 1.1e-12) (by rw [abs_of_nonneg (by linarith)]; linarith) (by norm_num) (by norm_num)
    have k1 : 1 ≤ R.val (xa + 1.0) := by
      rw [(R.add _ _ fq1 o1 (le_roundBig (by rw [← eu0, o2, abs_of_nonneg (by linarith)]; norm_num; linarith))).2, o2, ← eu0]
      have := R.mono (show (1 : ℝ) ≤ u0 + 1 by linarith)
      have ex := R.exact 1 0 (by norm_num) (by norm_num) (by norm_num)
      norm_num at ex
      rwa [ex] at this
    rw [pyInt_round nk.fin (by linarith)]
    obtain ⟨K, eK⟩ : ∃ K, K = ⌊R.val (xa + 1.0)⌋ := ⟨_, rfl⟩
    have K1 : 1 ≤ K := by rw [eK]; exact Int.le_floor.2 (by exact_mod_cast k1)
    have Kl : (K : ℝ) ≤ R.val (xa + 1.0) := by rw [eK]; exact Int.floor_le _
    have Ku : R.val (xa + 1.0) < K + 1 := by rw [eK]; exact Int.lt_floor_add_one _
    rw [← eK]
    have kerr := abs_le.1 nk.err
    have Kn : K ≤ n := by
      have : (K : ℝ) < (n : ℤ) + 1 := by push_cast; norm_num at kerr t2; linarith [kerr.2]
      have : K < (n : ℤ) + 1 := by exact_mod_cast this
      omega
    obtain ⟨iKf, iKv⟩ := val_int R K (by rw [abs_of_nonneg (by omega)]; omega) (α := α)
    have nx := na.sub (Near.of_eq iKf iKv) (M := 1.1) (g := 2e-15)
      (by rw [add_zero, add_zero, abs_le]; norm_num at kerr ⊢; constructor <;> linarith [kerr.1, kerr.2]) (by norm_num) (by norm_num)
    have xerr := abs_le.1 nx.err
    rw [abs_le] at du
    have Kn' : (K : ℝ) ≤ n := by exact_mod_cast Kn
    have K1' : (1 : ℝ) ≤ K := by exact_mod_cast K1
    obtain ⟨s, es, sl, sn⟩ := dlthxResample_round R (p := p) (n := n) (step := step) (d := d) (σ := 6.2e-12 / m + 3e-14) hnp hl hz nst.fin st0
      (by have := nst.le; generalize (6.2e-12 : ℝ) / m = y at *; norm_num at *; linarith) d0 nst.err (resampled u v) (xa := xa - PyNum.ofInt K) (k := K) (P := u)
      (e := 6e-12) nx.fin (by norm_num at kerr xerr ⊢; linarith [kerr.2, xerr.1]) (by norm_num at kerr xerr ⊢; linarith [kerr.1, xerr.2]) K1 Kn
      (by rw [abs_le]; norm_num at xerr du ⊢; constructor <;> linarith [xerr.1, xerr.2, du.1, du.2]) u_0
      (by rw [eNm]; push_cast; rw [add_sub_cancel_right, dm]; linarith)
      (by
        rw [eNm]; push_cast
        have e : ((m : ℝ) + 1) * (6.2e-12 / m + 3e-14 + 3.3e-14) = 6.2e-12 + 6.2e-12 / m + (m + 1) * 6.3e-14 := by linear_combination sm
        rw [e]
        generalize (6.2e-12 : ℝ) / m = y at *
        clear * - s34 m244 hnR K1'
        norm_num at s34 ⊢; linarith)
    rw [es, ok_bind, em]
    have esam : (fun i : ℕ => interp (valPfl R p).h (u + i * d)) = resample (valPfl R p).h u v := by
      funext i
      unfold resample
      rw [eNm, ed]
      push_cast
      rw [add_sub_cancel_right]
    obtain ⟨w, ω, ew, iw, nw, w0, ωb⟩ := irr_round R (z := (valPfl R p).h) (n := n) (u := u) (v := v) (x1 := x1) (x2 := x2) (s := s)
      (fun j hj => by rw [valPfl_h R (by omega)]; exact (hz _ (List.getElem_mem _)).2) u_0 v_n uv2 f1 f2 h12 h1 h4 sl
      (fun i h => by have := sn i h; rw [← esam]; exact this)
    rw [abs_le] at dt
    refine ⟨u, v, ω, w, tuv, u_0, v_n, uv2, ?_, ?_, ew, iw, nw, w0, ωb, ?_⟩
    · rw [abs_le]; norm_num at c1 du ⊢; constructor <;> linarith [c1.1, c1.2, du.1, du.2]
    · rw [abs_le]; norm_num at c2 du dt ⊢; constructor <;> linarith [c2.1, c2.2, du.1, du.2, dt.1, dt.2]
    · norm_num at c1 c2 t2 ⊢; linarith [c1.1, c1.2, c2.1, c2.2]

/-- The number of discarded values changes at lengths of 42, 52, …, 242 intervals. -/
theorem trimmed_steady {t T : ℝ} (ht : 0 ≤ t) (hT : 0 ≤ T) (h : |t - T| ≤ 1e-11) (hk : ∀ k : ℕ, 5 ≤ k → k ≤ 25 → 1e-11 < |T - (10 * k - 8)|) :
    min (max 4 ⌊(T + 8) / 10⌋₊) 25 = min (max 4 ⌊(t + 8) / 10⌋₊) 25 := by
  have key : ∀ {s : ℝ} {k : ℕ}, 0 ≤ s → 5 ≤ k → k ≤ 25 → (k ≤ min (max 4 ⌊(s + 8) / 10⌋₊) 25 ↔ (10 * k - 8 : ℝ) ≤ s) := by
    intro s k hs h5 h25
    have : k ≤ min (max 4 ⌊(s + 8) / 10⌋₊) 25 ↔ k ≤ ⌊(s + 8) / 10⌋₊ := by omega
    rw [this, Nat.le_floor_iff (by linarith), le_div_iff₀ (by norm_num)]
    constructor <;> intro <;> linarith
  rw [abs_le] at h
  by_contra hne
  rcases lt_or_gt_of_ne hne with c | c
  · obtain ⟨k, ek⟩ : ∃ k, k = min (max 4 ⌊(t + 8) / 10⌋₊) 25 := ⟨_, rfl⟩
    have h5 : 5 ≤ k := by omega
    have h25 : k ≤ 25 := by omega
    have a := (key ht h5 h25).1 (by omega)
    have b : ¬ (10 * k - 8 : ℝ) ≤ T := fun hb => by have := (key hT h5 h25).2 hb; omega
    have := hk k h5 h25
    rw [abs_of_neg (by linarith)] at this
    linarith [h.2]
  · obtain ⟨k, ek⟩ : ∃ k, k = min (max 4 ⌊(T + 8) / 10⌋₊) 25 := ⟨_, rfl⟩
    have h5 : 5 ≤ k := by omega
    have h25 : k ≤ 25 := by omega
    have a := (key hT h5 h25).1 (by omega)
    have b : ¬ (10 * k - 8 : ℝ) ≤ t := fun hb => by have := (key ht h5 h25).2 hb; omega
    have := hk k h5 h25
    rw [abs_of_nonneg (by linarith)] at this
    linarith [h.1]

end Itm
