import Verif.Lemmas.LineReal
import Mathlib.Tactic.IntervalCases

/-! Scatter functions over the reals. -/

namespace Itm

/-! ### ahd -/

noncomputable def ahdR (td : ℝ) : ℝ :=
  if td ≤ 10e3 then 133.4 + 0.332e-3 * td + -4.343 * Real.log td
  else if td ≤ 70e3 then 104.6 + 0.212e-3 * td + -1.086 * Real.log td
  else 71.8 + 0.157e-3 * td + 2.171 * Real.log td

theorem ahd_ok {td : ℝ} (h : 0 < td) : ahd td = .ok (ahdR td) := by
  unfold ahd ahdR
  simp only [lit_eq]
  rw [npLog_ok h, ok_bind, pure_ok]
  split_ifs <;> rfl

/-! ### h0f -/

noncomputable def rowA : ℕ → ℝ | 0 => 25.0 | 1 => 80.0 | 2 => 177.0 | 3 => 395.0 | _ => 705.0
noncomputable def rowB : ℕ → ℝ | 0 => 24.0 | 1 => 45.0 | 2 => 68.0 | 3 => 80.0 | _ => 105.0

theorem rowA_mono (n : ℕ) : rowA n ≤ rowA (n + 1) := by
  match n with
  | 0 | 1 | 2 | 3 => simp only [rowA]; norm_num
  | n + 4 => simp only [rowA]; exact le_refl _

theorem rowB_mono (n : ℕ) : rowB n ≤ rowB (n + 1) := by
  match n with
  | 0 | 1 | 2 | 3 => simp only [rowB]; norm_num
  | n + 4 => simp only [rowB]; exact le_refl _

theorem rowA_nonneg (n : ℕ) : 0 ≤ rowA n := by
  match n with
  | 0 | 1 | 2 | 3 => simp only [rowA]; norm_num
  | n + 4 => simp only [rowA]; norm_num

theorem rowB_nonneg (n : ℕ) : 0 ≤ rowB n := by
  match n with
  | 0 | 1 | 2 | 3 => simp only [rowB]; norm_num
  | n + 4 => simp only [rowB]; norm_num

/-- One row of the table. -/
noncomputable def rowR (n : ℕ) (x : ℝ) : ℝ := 4.343 * Real.log ((rowA n * x + rowB n) * x + 1.0)

theorem rowArg_ge (n : ℕ) {x : ℝ} (hx : 0 ≤ x) : 1 ≤ (rowA n * x + rowB n) * x + 1.0 := by
  have h1 := rowA_nonneg n; have h2 := rowB_nonneg n
  have : 0 ≤ (rowA n * x + rowB n) * x := by positivity
  norm_num; linarith

theorem rowR_nonneg (n : ℕ) {x : ℝ} (hx : 0 ≤ x) : 0 ≤ rowR n x :=
  mul_nonneg (by norm_num) (Real.log_nonneg (rowArg_ge n hx))

theorem rowR_succ (n : ℕ) {x : ℝ} (hx : 0 ≤ x) : rowR n x ≤ rowR (n + 1) x := by
  unfold rowR
  refine mul_le_mul_of_nonneg_left (Real.log_le_log (by linarith [rowArg_ge n hx]) ?_) (by norm_num)
  have h1 := rowA_mono n; have h2 := rowB_mono n
  have : rowA n * x + rowB n ≤ rowA (n + 1) * x + rowB (n + 1) := by nlinarith
  nlinarith

theorem rowR_mono {n m : ℕ} (h : n ≤ m) {x : ℝ} (hx : 0 ≤ x) : rowR n x ≤ rowR m x :=
  monotone_nat_of_le_succ (f := fun n => rowR n x) (fun n => rowR_succ n hx) h

theorem rowR_mono_x (n : ℕ) {x y : ℝ} (hx : 0 ≤ x) (hxy : x ≤ y) : rowR n x ≤ rowR n y := by
  unfold rowR
  refine mul_le_mul_of_nonneg_left (Real.log_le_log (by linarith [rowArg_ge n hx]) ?_) (by norm_num)
  have h1 := rowA_nonneg n; have h2 := rowB_nonneg n
  have : rowA n * x + rowB n ≤ rowA n * y + rowB n := by nlinarith
  have : 0 ≤ rowA n * x + rowB n := by positivity
  nlinarith

theorem h0fRow_ok {i : ℤ} (h0 : 0 ≤ i) (h4 : i ≤ 4) {x : ℝ} (hx : 0 ≤ x) : h0fRow i x = .ok (rowR i.toNat x) := by
  have key : ∀ n : ℕ, n ≤ 4 → h0fRow (n : ℤ) x = .ok (rowR n x) := by
    intro n hn
    unfold h0fRow
    have ha : pyGet (h0fA : List ℝ) (n : ℤ) = .ok (rowA n) := by
      rw [pyGet_nonneg (by omega) (by simp [h0fA]; omega)]
      interval_cases n <;> rfl
    have hb : pyGet (h0fB : List ℝ) (n : ℤ) = .ok (rowB n) := by
      rw [pyGet_nonneg (by omega) (by simp [h0fB]; omega)]
      interval_cases n <;> rfl
    rw [ha, ok_bind, hb, ok_bind]
    rw [npLog_ok (by linarith [rowArg_ge n hx] : 0 < (rowA n * x + rowB n) * x + 1.0)]
    rfl
  have := key i.toNat (by omega)
  rwa [Int.toNat_of_nonneg h0] at this

/-- Table interpolation. -/
noncomputable def tableR (x et : ℝ) : ℝ :=
  if ⌊et⌋ ≤ 0 then rowR 0 x
  else if 5 ≤ ⌊et⌋ then rowR 4 x
  else (1.0 - (et - ⌊et⌋)) * rowR (⌊et⌋ - 1).toNat x + (et - ⌊et⌋) * rowR ⌊et⌋.toNat x

theorem h0f_ok {r et : ℝ} (hr : r ≠ 0) : h0f r et = .ok (tableR ((1.0 / r) ^ 2) et) := by
  have hx : (0:ℝ) ≤ (1.0 / r) ^ 2 := sq_nonneg _
  unfold h0f tableR
  simp only [lit_eq, npow_real, rfloor, rofInt]
  by_cases h1 : ⌊et⌋ ≤ 0
  · simp only [h1, if_true]
    rw [pyDiv_ok hr, ok_bind, h0fRow_ok (by norm_num) (by norm_num) hx, ok_bind]
    simp
    rfl
  · simp only [h1, if_false]
    by_cases h2 : 5 ≤ ⌊et⌋
    · simp only [h2, if_true]
      rw [pyDiv_ok hr, ok_bind, h0fRow_ok (by norm_num) (by norm_num) hx, ok_bind]
      simp
      rfl
    · simp only [h2, if_false]
      rw [pyDiv_ok hr, ok_bind, h0fRow_ok (by omega) (by omega) hx, ok_bind]
      by_cases hq : pyEq (et - (⌊et⌋ : ℝ)) 0.0
      · rw [if_neg (not_not.2 hq)]
        rw [pyEq_real] at hq
        rw [hq, pure_ok]; norm_num
      · rw [if_pos hq, h0fRow_ok (by omega) (by omega) hx, ok_bind, pure_ok]

theorem tableR_nonneg {x et : ℝ} (hx : 0 ≤ x) : 0 ≤ tableR x et := by
  unfold tableR
  split_ifs
  · exact rowR_nonneg _ hx
  · exact rowR_nonneg _ hx
  · have h1 := Int.floor_le et; have h2 := Int.lt_floor_add_one et
    refine add_nonneg (mul_nonneg ?_ (rowR_nonneg _ hx)) (mul_nonneg (by linarith) (rowR_nonneg _ hx))
    rw [show (1.0 : ℝ) = 1 by norm_num]; linarith

theorem tableR_le {x et : ℝ} (hx : 0 ≤ x) : tableR x et ≤ rowR 4 x := by
  unfold tableR
  split_ifs with h1 h2
  · exact rowR_mono (by norm_num) hx
  · exact le_refl _
  · have h3 := Int.floor_le et; have h4 := Int.lt_floor_add_one et
    have r1 : rowR (⌊et⌋ - 1).toNat x ≤ rowR 4 x := rowR_mono (by omega) hx
    have r2 : rowR ⌊et⌋.toNat x ≤ rowR 4 x := rowR_mono (by omega) hx
    have : (1.0 : ℝ) = 1 := by norm_num
    rw [this]
    nlinarith

theorem tableR_mono {x e e' : ℝ} (hx : 0 ≤ x) (h : e ≤ e') : tableR x e ≤ tableR x e' := by
  have hf : ⌊e⌋ ≤ ⌊e'⌋ := Int.floor_le_floor h
  have h3 := Int.floor_le e; have h4 := Int.lt_floor_add_one e
  have h3' := Int.floor_le e'; have h4' := Int.lt_floor_add_one e'
  have e1 : (1.0 : ℝ) = 1 := by norm_num
  by_cases c1 : ⌊e⌋ ≤ 0
  · -- the left value is the lowest row
    have hl : tableR x e = rowR 0 x := by unfold tableR; rw [if_pos c1]
    rw [hl]
    unfold tableR
    split_ifs with d1 d2
    · exact le_refl _
    · exact rowR_mono (by norm_num) hx
    · have r1 : rowR 0 x ≤ rowR (⌊e'⌋ - 1).toNat x := rowR_mono (by omega) hx
      have r2 : rowR 0 x ≤ rowR ⌊e'⌋.toNat x := rowR_mono (by omega) hx
      rw [e1]; nlinarith
  · by_cases c2 : 5 ≤ ⌊e'⌋
    · have hl : tableR x e' = rowR 4 x := by unfold tableR; rw [if_neg (by omega), if_pos c2]
      rw [hl]; exact tableR_le hx
    · unfold tableR
      rw [if_neg c1, if_neg (by omega), if_neg (by omega), if_neg c2, e1]
      rcases eq_or_lt_of_le hf with hfe | hfl
      · rw [← hfe]
        rw [← hfe] at h3' h4'
        have r : rowR (⌊e⌋ - 1).toNat x ≤ rowR ⌊e⌋.toNat x := rowR_mono (by omega) hx
        nlinarith
      · have r1 : rowR (⌊e⌋ - 1).toNat x ≤ rowR ⌊e⌋.toNat x := rowR_mono (by omega) hx
        have r2 : rowR ⌊e⌋.toNat x ≤ rowR (⌊e'⌋ - 1).toNat x := rowR_mono (by omega) hx
        have r3 : rowR (⌊e'⌋ - 1).toNat x ≤ rowR ⌊e'⌋.toNat x := rowR_mono (by omega) hx
        nlinarith

theorem tableR_mono_x {x y e : ℝ} (hx : 0 ≤ x) (h : x ≤ y) : tableR x e ≤ tableR y e := by
  unfold tableR
  have h3 := Int.floor_le e; have h4 := Int.lt_floor_add_one e
  split_ifs with d1 d2
  · exact rowR_mono_x _ hx h
  · exact rowR_mono_x _ hx h
  · have r1 := rowR_mono_x (⌊e⌋ - 1).toNat hx h
    have r2 := rowR_mono_x ⌊e⌋.toNat hx h
    have e1 : (1.0 : ℝ) = 1 := by norm_num
    rw [e1]
    nlinarith

/-! ### ascat -/

theorem corr_range {k r1 r2 : ℝ} (hk : 0 < k) (hr1 : 0 < r1) (hr2 : 0 < r2) :
    1 ≤ ((1 + k / r1) * (1 + k / r2)) ^ 2 * (r1 + r2) / (r1 + r2 + 2 * k) ∧
    ((1 + k / r1) * (1 + k / r2)) ^ 2 * (r1 + r2) / (r1 + r2 + 2 * k) ≤ ((1 + k / r1) * (1 + k / r2)) ^ 2 := by
  have hs : 0 < r1 + r2 := by linarith
  have b : 1 + 4 * k / (r1 + r2) ≤ (1 + k / r1) * (1 + k / r2) := by
    have e : (1 + k / r1) * (1 + k / r2) = 1 + k * (r1 + r2) / (r1 * r2) + k / r1 * (k / r2) := by field_simp; ring
    have b2 : 4 * k / (r1 + r2) ≤ k * (r1 + r2) / (r1 * r2) := by
      rw [div_le_div_iff₀ (by positivity) (by positivity)]
      nlinarith [mul_nonneg hk.le (sq_nonneg (r1 - r2))]
    have : 0 ≤ k / r1 * (k / r2) := by positivity
    rw [e]; linarith
  have hu : 0 < 4 * k / (r1 + r2) := by positivity
  have hus : 4 * k / (r1 + r2) * (r1 + r2) = 4 * k := by field_simp
  generalize 4 * k / (r1 + r2) = u at *
  generalize (1 + k / r1) * (1 + k / r2) = P at *
  have b4 : 1 + 2 * u ≤ P ^ 2 := by nlinarith
  constructor
  · rw [le_div_iff₀ (by positivity)]
    nlinarith
  · rw [div_le_iff₀ (by positivity)]
    nlinarith [sq_nonneg P]

/-- An upper bound of the attenuation gain in terms of the two scatter parameters. -/
noncomputable def h0Bound (r : ℝ × ℝ × ℝ) : ℝ :=
  max (rowR 4 ((1.0 / r.2.1) ^ 2) + rowR 4 ((1.0 / r.2.2) ^ 2))
    (4.343 * Real.log (((1 + 1.4142 / r.2.1) * (1 + 1.4142 / r.2.2)) ^ 2))

/-- The attenuation gain `h0` computed afresh: success and range, for positive angle and heights. -/
theorem ascatH0_ok {d : ℝ} {p : PropSt ℝ} {s : ScatPrep ℝ} (hw : 0 < p.wn) (h0 : 0 < p.he.x0) (h1 : 0 < p.he.x1)
    (hth : 0 < p.the.x0 + p.the.x1 + d * p.gme) (had : 0 ≤ s.ad) (hd : s.ad < d) (hrr : 0 < s.rr) (hetq : -1 ≤ s.etq) :
    ∃ h, ascatH0 d p s = .ok h ∧ 0 ≤ h ∧ h ≤ max (h0Bound (ascatR d p)) s.h0s := by
  have hd0 : 0 < d := lt_of_le_of_lt had hd
  obtain ⟨th, r1, r2, hR⟩ : ∃ th r1 r2, ascatR d p = (th, r1, r2) := ⟨_, _, _, rfl⟩
  have hT : th = p.the.x0 + p.the.x1 + d * p.gme := by
    have := congrArg Prod.fst hR; exact this.symm
  have hr1 : 0 < r1 := by
    have e := congrArg (fun x => x.2.1) hR
    simp only [ascatR, lit_eq] at e
    rw [← e]; positivity
  have hr2 : 0 < r2 := by
    have e := congrArg (fun x => x.2.2) hR
    simp only [ascatR, lit_eq] at e
    rw [← e]; positivity
  have hthp : 0 < th := by rw [hT]; exact hth
  have hss : 0 < (d - s.ad) / (d + s.ad) := div_pos (by linarith) (by linarith)
  have e1 : (1.0 : ℝ) = 1 := by norm_num
  have e28 : (2.8284 : ℝ) = 2 * 1.4142 := by norm_num
  have pk : (0:ℝ) < 1.4142 := by norm_num
  rw [hR]
  unfold ascatH0 h0Bound
  rw [hR]
  simp only [lit_eq, npow_real, pyMax_real, pyMin_real, rexp, e1, zero_lit]
  rw [pyDiv_ok (by linarith : d + s.ad ≠ 0), ok_bind, pyDiv_ok hss.ne', ok_bind, pyDiv_ok hd0.ne', ok_bind]
  generalize hss' : max 0.1 ((d - s.ad) / (d + s.ad)) = ss
  generalize hq' : min (max 0.1 (s.rr / ((d - s.ad) / (d + s.ad)))) 10.0 = q
  have hz : 0 < (d - s.ad) * (d + s.ad) * th * 0.25 / d := by
    have k1 : 0 < d - s.ad := by linarith
    have k2 : 0 < d + s.ad := by linarith
    positivity
  generalize (d - s.ad) * (d + s.ad) * th * 0.25 / d = z0 at *
  have het : 0 ≤ (s.etq * Real.exp (-(min 1.7 (z0 / 8.0e3)) ^ 6) + 1) * z0 / 1.7556e3 := by
    have hE : Real.exp (-(min 1.7 (z0 / 8.0e3)) ^ 6) ≤ 1 := Real.exp_le_one_iff.2 (neg_nonpos.2 (by positivity))
    have hE0 := Real.exp_pos (-(min 1.7 (z0 / 8.0e3)) ^ 6)
    generalize Real.exp (-(min 1.7 (z0 / 8.0e3)) ^ 6) = E at *
    have : 0 ≤ s.etq * E + 1 := by nlinarith
    positivity
  generalize (s.etq * Real.exp (-(min 1.7 (z0 / 8.0e3)) ^ 6) + 1) * z0 / 1.7556e3 = et at *
  have pss : 0 < ss := by rw [← hss']; exact lt_of_lt_of_le (by norm_num) (le_max_left _ _)
  have pq : 0 < q := by rw [← hq']; exact lt_min (lt_of_lt_of_le (by norm_num) (le_max_left _ _)) (by norm_num)
  have pet : 0 < max et 1 := lt_of_lt_of_le (by norm_num) (le_max_right _ _)
  rw [h0f_ok hr1.ne', ok_bind, h0f_ok hr2.ne', ok_bind, npLog_ok pet, ok_bind, npLog_ok pss, ok_bind, npLog_ok pq, ok_bind]
  simp only [e1]
  have hx1 : (0:ℝ) ≤ (1 / r1) ^ 2 := sq_nonneg _
  have hx2 : (0:ℝ) ≤ (1 / r2) ^ 2 := sq_nonneg _
  have t1 := tableR_nonneg (et := max et 1) hx1
  have t2 := tableR_nonneg (et := max et 1) hx2
  have u1 := tableR_le (et := max et 1) hx1
  have u2 := tableR_le (et := max et 1) hx2
  generalize tableR ((1 / r1) ^ 2) (max et 1) = T1 at *
  generalize tableR ((1 / r2) ^ 2) (max et 1) = T2 at *
  generalize rowR 4 ((1 / r1) ^ 2) = U1 at *
  generalize rowR 4 ((1 / r2) ^ 2) = U2 at *
  generalize (1.38 - Real.log (max et 1)) * Real.log ss * Real.log q * 0.49 = X at *
  have m0 : 0 ≤ max ((T1 + T2) * 0.5 + min ((T1 + T2) * 0.5) X) 0 := le_max_right _ _
  have mU : max ((T1 + T2) * 0.5 + min ((T1 + T2) * 0.5) X) 0 ≤ U1 + U2 := by
    refine max_le ?_ (by linarith)
    have := min_le_left ((T1 + T2) * 0.5) X
    have e5 : (0.5 : ℝ) = 1 / 2 := by norm_num
    rw [e5] at *
    linarith
  generalize max ((T1 + T2) * 0.5 + min ((T1 + T2) * 0.5) X) 0 = m at *
  obtain ⟨c1, c2⟩ := corr_range pk hr1 hr2
  have fin : ∀ v : ℝ, 0 ≤ v → v ≤ max (U1 + U2) (4.343 * Real.log (((1 + 1.4142 / r1) * (1 + 1.4142 / r2)) ^ 2)) →
      ∃ h, (pure (if 15.0 < v ∧ (0:ℝ) ≤ s.h0s then s.h0s else v) : Py ℝ) = .ok h ∧ 0 ≤ h ∧
        h ≤ max (max (U1 + U2) (4.343 * Real.log (((1 + 1.4142 / r1) * (1 + 1.4142 / r2)) ^ 2))) s.h0s := by
    intro v hv0 hvU
    refine ⟨_, rfl, ?_, ?_⟩
    · split_ifs with h
      · exact h.2
      · exact hv0
    · split_ifs
      · exact le_max_right _ _
      · exact hvU.trans (le_max_left _ _)
  by_cases c : et < 1
  · have hsum : r1 + r2 + 2.8284 ≠ 0 := by positivity
    rw [if_pos c, pyDiv_ok hr1.ne', ok_bind, pyDiv_ok hr2.ne', ok_bind, pyDiv_ok hsum, ok_bind]
    rw [e28]
    rw [npLog_ok (lt_of_lt_of_le one_pos c1), ok_bind]
    have hl0 := Real.log_nonneg c1
    have hlU := Real.log_le_log (lt_of_lt_of_le one_pos c1) c2
    generalize ((1 + 1.4142 / r1) * (1 + 1.4142 / r2)) ^ 2 * (r1 + r2) / (r1 + r2 + 2 * 1.4142) = Y at *
    generalize ((1 + 1.4142 / r1) * (1 + 1.4142 / r2)) ^ 2 = Z at *
    generalize Real.log Y = L at *
    generalize Real.log Z = V at *
    have h1et : 0 ≤ 1 - et := by linarith
    have k43 : (0:ℝ) ≤ 4.343 := by norm_num
    refine fin _ ?_ ?_
    · positivity
    · have k1 : m ≤ max (U1 + U2) (4.343 * V) := mU.trans (le_max_left _ _)
      have k2 : 4.343 * L ≤ max (U1 + U2) (4.343 * V) := le_trans (mul_le_mul_of_nonneg_left hlU k43) (le_max_right _ _)
      generalize max (U1 + U2) (4.343 * V) = W at *
      have e1 := mul_le_mul_of_nonneg_left k1 het
      have e2 := mul_le_mul_of_nonneg_left k2 h1et
      calc et * m + (1 - et) * 4.343 * L ≤ et * W + (1 - et) * W := by rw [mul_assoc]; exact add_le_add e1 e2
        _ = W := by ring
  · rw [if_neg c]
    exact fin m m0 (mU.trans (le_max_left _ _))

/-- Final scatter attenuation. -/
noncomputable def ascatFinalR (wn gme ens tha d h0 : ℝ) : ℝ :=
  ahdR ((tha + d * gme) * d) + 4.343 * Real.log (47.7 * wn * (tha + d * gme) ^ 4) -
    0.1 * (ens - 301.0) * Real.exp (-(tha + d * gme) * d / 40e3) + h0

theorem ascatFinal_ok {p : PropSt ℝ} {h : Horizon ℝ} {d h0 : ℝ} (hh : p.hor = some h) (hw : 0 < p.wn) (hd : 0 < d)
    (hth : 0 < h.tha + d * p.gme) : ascatFinal d h0 p = .ok (ascatFinalR p.wn p.gme p.ens h.tha d h0) := by
  unfold ascatFinal ascatFinalR
  simp only [lit_eq, npow_real, rexp, hh, need, ok_bind]
  rw [ahd_ok (by positivity), ok_bind, npLog_ok (by positivity), ok_bind]
  rfl

theorem etq_ge (e : ℝ) : -1 ≤ (5.67e-6 * e - 2.32e-3) * e + 0.031 := by
  norm_num; nlinarith [sq_nonneg (e - 204)]

theorem scatPrep_ok {i : LrIn ℝ} (a : Adm i) : ∃ s, scatPrep (blank 0 i) = .ok s ∧ s.ad = |i.dl.x0 - i.dl.x1| ∧ 0 < s.rr ∧
    -1 ≤ s.etq ∧ s.h0s = -15 := by
  have h0 := a.he0; have h1 := a.he1
  unfold scatPrep
  simp only [lit_eq, zero_lit]
  rw [show (blank 0 i).he = i.he from rfl, show (blank 0 i).dl = i.dl from rfl, show (blank 0 i).ens = i.ens from rfl]
  rw [pyDiv_ok h0.ne', ok_bind]
  have hr : 0 < i.he.x1 / i.he.x0 := by positivity
  by_cases c : i.dl.x0 - i.dl.x1 < 0
  · rw [if_pos c, pyDiv_ok hr.ne', ok_bind]
    refine ⟨_, rfl, (abs_of_neg c).symm, ?_, etq_ge _, by norm_num⟩
    simp only; positivity
  · rw [if_neg c]
    exact ⟨_, rfl, (abs_of_nonneg (not_lt.1 c)).symm, hr, etq_ge _, by norm_num⟩

/-- The scatter computation at one distance. -/
theorem ascatC_ok {i : LrIn ℝ} {h : Horizon ℝ} {s : ScatPrep ℝ} {a1 d : ℝ} (a : Adm i)
    (hth : 0 < i.the.x0 + i.the.x1 + d * i.gme) (hth' : 0 < h.tha + d * i.gme) (had : 0 ≤ s.ad) (hd : s.ad < d) (hrr : 0 < s.rr)
    (hetq : -1 ≤ s.etq) :
    ∃ h0 s', ascatC i h s a1 d = .ok (ascatFinalR i.wn i.gme i.ens h.tha d h0, s') ∧ 0 ≤ h0 ∧ s'.ad = s.ad ∧ s'.rr = s.rr ∧
      s'.etq = s.etq ∧ (s'.h0s = s.h0s ∨ s'.h0s = h0) ∧ h0 ≤ max (h0Bound (ascatR d (blank 0 i))) s.h0s := by
  have hd0 : 0 < d := lt_of_le_of_lt had hd
  have hfin : ∀ h0, ascatFinal d h0 { blank 0 i with hor := some h } = .ok (ascatFinalR i.wn i.gme i.ens h.tha d h0) := fun h0 =>
    ascatFinal_ok (p := { blank 0 i with hor := some h }) rfl a.wn hd0 hth'
  unfold ascatC
  by_cases c : 15.0 < s.h0s
  · rw [if_pos c, hfin, ok_bind, pure_ok]
    have c' : 15 < s.h0s := by norm_num at c; exact c
    exact ⟨s.h0s, s, rfl, by linarith, rfl, rfl, rfl, .inl rfl, le_max_right _ _⟩
  · rw [if_neg c]
    obtain ⟨v, hv, hv0, hvU⟩ := ascatH0_ok (p := blank 0 i) (d := d) (s := s) a.wn a.he0 a.he1 hth had hd hrr hetq
    rw [hv, ok_bind, hfin, ok_bind, pure_ok]
    refine ⟨v, _, rfl, hv0, ?_, ?_, ?_, ?_, hvU⟩
    · split_ifs <;> rfl
    · split_ifs <;> rfl
    · split_ifs <;> rfl
    · split_ifs <;> first | exact .inl rfl | exact .inr rfl

/-- The scatter coefficients exist when the two slopes differ. -/
theorem scatC_ok {i : LrIn ℝ} {l : DiffLine ℝ} {a1 : ℝ} (a : Adm i)
    (hth : 0 < i.the.x0 + i.the.x1 + ((horR i).dla + 200e3) * i.gme) :
    ∃ s h6 h5, 0 ≤ h6 ∧ 0 ≤ h5 ∧
      h6 ≤ max (h0Bound (ascatR ((horR i).dla + 200e3 + 200e3) (blank 0 i))) (-15) ∧
      h5 ≤ max (h0Bound (ascatR ((horR i).dla + 200e3) (blank 0 i))) (max (-15) h6) ∧
      scatC i (horR i) l a1 = (do
        let c ← scatCoef (blank 0 i) (horR i) l ((horR i).dla + 200e3)
          (ascatFinalR i.wn i.gme i.ens (horR i).tha ((horR i).dla + 200e3) h5)
          (ascatFinalR i.wn i.gme i.ens (horR i).tha ((horR i).dla + 200e3 + 200e3) h6)
        pure (ascatFinalR i.wn i.gme i.ens (horR i).tha ((horR i).dla + 200e3) h5, s, c)) := by
  have hla := horR_dla_pos a
  have k : (0:ℝ) < 200e3 := by norm_num
  have had : |i.dl.x0 - i.dl.x1| < (horR i).dla := by
    rw [abs_lt]; constructor
    · change -(i.dl.x0 + i.dl.x1) < _; linarith [a.dl0]
    · change _ < (i.dl.x0 + i.dl.x1); linarith [a.dl1]
  have hth6 : 0 < i.the.x0 + i.the.x1 + ((horR i).dla + 200e3 + 200e3) * i.gme := by nlinarith [a.gme, mul_pos k a.gme]
  have ht5 : 0 < (horR i).tha + ((horR i).dla + 200e3) * i.gme := tha_pos a (by linarith)
  have ht6 : 0 < (horR i).tha + ((horR i).dla + 200e3 + 200e3) * i.gme := tha_pos a (by linarith)
  obtain ⟨s, hs, hsa, hsr, hse, hsh⟩ := scatPrep_ok a
  obtain ⟨h6, s6, e6, h60, ea, er, ee, eh, hU⟩ := ascatC_ok (h := horR i) (s := s) (a1 := a1) a hth6 ht6 (by rw [hsa]; exact abs_nonneg _)
    (by rw [hsa]; linarith) hsr hse
  obtain ⟨h5, s5, e5, h50, _, _, _, _, hU5⟩ := ascatC_ok (h := horR i) (s := s6)
    (a1 := ascatFinalR i.wn i.gme i.ens (horR i).tha ((horR i).dla + 200e3 + 200e3) h6) a hth ht5 (by rw [ea, hsa]; exact abs_nonneg _)
    (by rw [ea, hsa]; linarith) (by rw [er]; exact hsr) (by rw [ee]; exact hse)
  refine ⟨s5, h6, h5, h60, h50, by rw [hsh] at hU; exact hU, hU5.trans (max_le_max_left _ ?_), ?_⟩
  · rcases eh with e | e
    · rw [e, hsh]; exact le_max_left _ _
    · rw [e]; exact le_max_right _ _
  unfold scatC
  rw [hs, ok_bind]
  dsimp only
  rw [show (@OfScientific.ofScientific ℝ instPyNumReal.toOfScientific 200 false 3) = (200e3 : ℝ) from rfl, e6, ok_bind]
  dsimp only
  rw [e5, ok_bind]

theorem scatCoef_ok {i : LrIn ℝ} {h : Horizon ℝ} {l : DiffLine ℝ} {d5 a5 a6 : ℝ} (hw : 0 < i.wn)
    (hne : l.emd ≠ (a6 - a5) / 200e3) : ∃ c, scatCoef (blank 0 i) h l d5 a5 a6 = .ok c := by
  unfold scatCoef
  simp only [lit_eq]
  split_ifs
  · rw [npLog_ok (by exact mul_pos (by norm_num) hw), ok_bind, pyDiv_ok (sub_ne_zero.2 hne), ok_bind]
    exact ⟨_, rfl⟩
  · exact ⟨_, rfl⟩

/-- What every computed scatter coefficient set satisfies: the two lines meet at `dx`. -/
theorem scatCoef_meets {i : LrIn ℝ} {h : Horizon ℝ} {l : DiffLine ℝ} {d5 a5 a6 : ℝ} {c : ScatC ℝ}
    (hc : scatCoef (blank 0 i) h l d5 a5 a6 = .ok c) : c.aes + c.ems * c.dx = l.aed + l.emd * c.dx := by
  unfold scatCoef at hc
  dsimp only at hc
  split_ifs at hc
  · obtain ⟨lg, _, hc⟩ := bind_eq_ok.1 hc
    obtain ⟨x, _, hc⟩ := bind_eq_ok.1 hc
    rw [pure_ok, ok_inj] at hc
    rw [← hc]; ring
  · rw [pure_ok, ok_inj] at hc
    rw [← hc]

theorem scatC_meets {i : LrIn ℝ} {h : Horizon ℝ} {l : DiffLine ℝ} {a1 : ℝ} {r : ℝ × ScatPrep ℝ × ScatC ℝ}
    (hr : scatC i h l a1 = .ok r) : r.2.2.aes + r.2.2.ems * r.2.2.dx = l.aed + l.emd * r.2.2.dx := by
  unfold scatC at hr
  dsimp only at hr
  obtain ⟨s, _, hr⟩ := bind_eq_ok.1 hr
  obtain ⟨x, _, hr⟩ := bind_eq_ok.1 hr
  obtain ⟨y, _, hr⟩ := bind_eq_ok.1 hr
  obtain ⟨c, hc, hr⟩ := bind_eq_ok.1 hr
  rw [pure_ok, ok_inj] at hr
  rw [← hr]; exact scatCoef_meets hc

end Itm
