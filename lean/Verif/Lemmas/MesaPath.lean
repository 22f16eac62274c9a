import Verif.Lemmas.Mesa
import Verif.Lemmas.Zlsq
import Verif.Spec.PathClear

/-! The path over the tableland: 34 samples, 2 km apart, of which 12 in the middle are 250 m high. -/

namespace Itm
open Itm.Spec

/-- The profile over any arithmetic. -/
def mesaZ {β : Type} (a b : β) : List β := List.replicate 11 a ++ List.replicate 12 b ++ List.replicate 11 a

noncomputable def mesaPath : Path := ⟨33, 2000, mesaK, 30, 30, fun j => (mesaZ (0 : ℝ) 250).getD j 0⟩

theorem mesa_z (j : ℕ) : (mesaZ (0 : ℝ) 250).getD j 0 = if 11 ≤ j ∧ j ≤ 22 then 250 else 0 := by
  by_cases h : j < 34
  · interval_cases j <;> simp [mesaZ, List.getD]
  · have e : (mesaZ (0 : ℝ) 250)[j]? = none := List.getElem?_eq_none (by show 34 ≤ j; omega)
    rw [if_neg (by omega), List.getD, e]
    rfl

theorem mesa_flat {j : ℕ} (h : j ≤ 10 ∨ 23 ≤ j) : mesaPath.z j = 0 := (mesa_z j).trans (if_neg (by omega))
theorem mesa_high {j : ℕ} (h : 11 ≤ j ∧ j ≤ 22) : mesaPath.z j = 250 := (mesa_z j).trans (if_pos h)

theorem mesa_profile : profilePath 66 30 30 (mesaZ 0 250) = mesaPath := by
  unfold profilePath mesaPath
  have e : (mesaZ (0 : ℝ) 250).length = 34 := rfl
  rw [e]
  congr 1
  norm_num

/-- The angle under which the edge of the tableland is seen from either end. -/
noncomputable def mesaTop : ℝ := 0.01 - 11000 * mesaK

theorem mesa_edge : elevation mesaK 30 22000 250 = mesaTop := by unfold elevation mesaTop; norm_num; ring

theorem mesa_view {s z : ℝ} (hs : 0 < s) (h : z = 0 ∨ (z = 250 ∧ 22000 < s)) : elevation mesaK 30 s z < mesaTop := by
  obtain ⟨k1, k2⟩ := mesa_k
  have p := mesa_kpos
  unfold elevation mesaTop
  rcases h with rfl | ⟨rfl, h⟩
  · have a : (0 - 30) / s ≤ 0 := div_nonpos_of_nonpos_of_nonneg (by norm_num) hs.le
    have b : 0 ≤ mesaK / 2 * s := by positivity
    norm_num at *; linarith
  · have a : (250 - 30) / s < 0.01 := by rw [div_lt_iff₀ hs]; norm_num; linarith
    have b := mul_lt_mul_of_pos_left h (show 0 < mesaK / 2 by positivity)
    norm_num at *; linarith

theorem mesa_far : elevation mesaK 30 66000 30 < mesaTop := by
  have := mesa_k.2
  unfold elevation mesaTop
  norm_num at *; linarith [mesa_kpos]

theorem mesa_fwd {j : ℕ} (h1 : 1 ≤ j) (h : j ≠ 11) : elevation mesaK 30 (j * 2000) (mesaPath.z j) < mesaTop := by
  have : (1 : ℝ) ≤ j := by exact_mod_cast h1
  refine mesa_view (by linarith) ?_
  by_cases c : 11 ≤ j ∧ j ≤ 22
  · have : (12 : ℝ) ≤ j := by exact_mod_cast (by omega : 12 ≤ j)
    exact .inr ⟨mesa_high c, by linarith⟩
  · exact .inl (mesa_flat (by omega))

theorem mesa_bwd {j : ℕ} (h1 : j ≤ 32) (h : j ≠ 22) : elevation mesaK 30 ((33 - j) * 2000) (mesaPath.z j) < mesaTop := by
  have : (j : ℝ) ≤ 32 := by exact_mod_cast h1
  refine mesa_view (by linarith) ?_
  by_cases c : 11 ≤ j ∧ j ≤ 22
  · have : (j : ℝ) ≤ 21 := by exact_mod_cast (by omega : j ≤ 21)
    exact .inr ⟨mesa_high c, by linarith⟩
  · exact .inl (mesa_flat (by omega))

theorem mesa_ends : mesaPath.z 0 + mesaPath.hg₀ = 30 ∧ mesaPath.z mesaPath.n + mesaPath.hg₁ = 30 ∧ mesaPath.len = 66000 := by
  refine ⟨?_, ?_, ?_⟩
  · rw [mesa_flat (.inl (by omega)), zero_add]; rfl
  · rw [mesa_flat (j := mesaPath.n) (.inr (by show 23 ≤ 33; omega)), zero_add]; rfl
  · show ((33 : ℕ) : ℝ) * 2000 = 66000; norm_num

theorem mesa_horizons {θ₀ θ₁ d₀ d₁ : ℝ} (h : mesaPath.Horizons θ₀ θ₁ d₀ d₁) : (θ₀ = mesaTop ∧ d₀ = 22000) ∧ θ₁ = mesaTop ∧ d₁ = 22000 := by
  unfold Path.Horizons at h
  obtain ⟨e0, e1, e2⟩ := mesa_ends
  rw [e0, e1, e2] at h
  obtain ⟨h0, h1⟩ := h
  have k0 : elevation mesaK 30 (((11 : ℕ) : ℝ) * 2000) (mesaPath.z 11) = mesaTop := by
    rw [mesa_high (by omega), ← mesa_edge]; norm_num
  have k1 : elevation mesaK 30 ((33 - ((22 : ℕ) : ℝ)) * 2000) (mesaPath.z 22) = mesaTop := by
    rw [mesa_high (by omega), ← mesa_edge]; norm_num
  have f := mesa_far
  constructor
  · have v' : mesaTop ≤ θ₀ := by rw [← k0]; exact h0.view_le 11 (by norm_num) (by decide)
    rcases h0.attained with ⟨e, -⟩ | ⟨j, j1, j2, -, e, ed, -⟩
    · have e' : θ₀ = elevation mesaK 30 66000 30 := e
      linarith
    · have e' : θ₀ = elevation mesaK 30 (j * 2000) (mesaPath.z j) := e
      have hj : j = 11 := by
        by_contra hj
        have := mesa_fwd j1 hj
        linarith
      subst hj
      refine ⟨e'.trans k0, ed.trans ?_⟩
      show ((11 : ℕ) : ℝ) * 2000 = 22000; norm_num
  · have v' : mesaTop ≤ θ₁ := by rw [← k1]; exact h1.view_le 22 (by norm_num) (by decide)
    rcases h1.attained with ⟨e, -⟩ | ⟨j, j1, j2, -, e, ed, -⟩
    · have e' : θ₁ = elevation mesaK 30 66000 30 := e
      linarith
    · have e' : θ₁ = elevation mesaK 30 ((33 - j) * 2000) (mesaPath.z j) := e
      have hj : j = 22 := by
        by_contra hj
        have := mesa_bwd j2 hj
        linarith
      subst hj
      refine ⟨e'.trans k1, ed.trans ?_⟩
      show (((33 : ℕ) : ℝ) - ((22 : ℕ) : ℝ)) * 2000 = 22000; norm_num

theorem mesa_obstructed : ¬ mesaPath.Clear := by
  intro h
  have := h 11 (by norm_num) (by decide)
  rw [mesa_ends.1, mesa_ends.2.1, mesa_high (by omega)] at this
  have e : (250 : ℝ) + mesaK / 2 * (((11 : ℕ) : ℝ) * 2000) * ((((33 : ℕ) : ℝ) - ((11 : ℕ) : ℝ)) * 2000) ≤
    (1 - ((11 : ℕ) : ℝ) / ((33 : ℕ) : ℝ)) * 30 + ((11 : ℕ) : ℝ) / ((33 : ℕ) : ℝ) * 30 := this
  norm_num at e
  linarith [mesa_kpos]

/-- The only line fitted to level ground is level. -/
theorem best_level {z : ℕ → ℝ} {a m : ℕ} (hm : 0 < m) (hz : ∀ j, a ≤ j → j ≤ a + m → z j = 0) {c s : ℝ} (h : BestLine z a m c s) : c = 0 ∧ s = 0 := by
  have h0 : BestLine z a m 0 0 := by
    intro c' s'
    have e : lineErr z a m 0 0 = 0 := by
      unfold lineErr trap
      refine Finset.sum_eq_zero fun i hi => ?_
      rw [Finset.mem_range] at hi
      dsimp only
      rw [hz _ (by omega) (by omega), hz _ (by omega) (by omega)]; ring
    rw [e]
    exact trap_nonneg (fun j => sq_nonneg _) a m
  exact ⟨(best_unique hm h).1.trans (best_unique hm h0).1.symm, (best_unique hm h).2.trans (best_unique hm h0).2.symm⟩

theorem mesa_trimmed : trimmed 0.225 32.775 = 4 ∧ resampled 0.225 32.775 = 35 := by
  have t : trimmed 0.225 32.775 = 4 := by
    unfold trimmed
    have : ⌊((32.775 : ℝ) - 0.225 + 8) / 10⌋₊ = 4 := by rw [Nat.floor_eq_iff (by norm_num)]; norm_num
    rw [this]; rfl
  exact ⟨t, by unfold resampled; rw [t]⟩

theorem mesa_spread : SpreadClear 0.225 32.775 := by
  refine ⟨by norm_num, fun _ k k1 _ => ?_⟩
  have : (5 : ℝ) ≤ k := by exact_mod_cast k1
  intro h; norm_num at h; linarith

theorem mesa_interp {t : ℝ} {n : ℕ} {v : ℝ} (h1 : (n : ℝ) ≤ t) (h2 : t < n + 1) (e1 : mesaPath.z n = v) (e2 : mesaPath.z (n + 1) = v) : interp mesaPath.z t = v := by
  have : ⌊t⌋₊ = n := by rw [Nat.floor_eq_iff (le_trans (Nat.cast_nonneg n) h1)]; exact ⟨h1, h2⟩
  unfold interp
  rw [this, e1, e2, sub_self, zero_mul, add_zero]

/-- Four of the resampled points in front of, on and behind the tableland. -/
theorem mesa_points : (∀ j ∈ [0, 1, 2, 3], resample mesaPath.z 0.225 32.775 j = 0) ∧ (∀ j ∈ [12, 13, 14, 15], resample mesaPath.z 0.225 32.775 j = 250) ∧
    ∀ j ∈ [24, 25, 26, 27], resample mesaPath.z 0.225 32.775 j = 0 := by
  unfold resample
  rw [mesa_trimmed.2]
  refine ⟨fun j hj => ?_, fun j hj => ?_, fun j hj => ?_⟩ <;>
    (simp only [List.mem_cons, List.not_mem_nil, or_false] at hj; rcases hj with rfl | rfl | rfl | rfl)
  · exact mesa_interp (n := 0) (by norm_num) (by norm_num) (mesa_flat (by omega)) (mesa_flat (by omega))
  · exact mesa_interp (n := 1) (by norm_num) (by norm_num) (mesa_flat (by omega)) (mesa_flat (by omega))
  · exact mesa_interp (n := 2) (by norm_num) (by norm_num) (mesa_flat (by omega)) (mesa_flat (by omega))
  · exact mesa_interp (n := 3) (by norm_num) (by norm_num) (mesa_flat (by omega)) (mesa_flat (by omega))
  · exact mesa_interp (n := 11) (by norm_num) (by norm_num) (mesa_high (by omega)) (mesa_high (by omega))
  · exact mesa_interp (n := 12) (by norm_num) (by norm_num) (mesa_high (by omega)) (mesa_high (by omega))
  · exact mesa_interp (n := 13) (by norm_num) (by norm_num) (mesa_high (by omega)) (mesa_high (by omega))
  · exact mesa_interp (n := 14) (by norm_num) (by norm_num) (mesa_high (by omega)) (mesa_high (by omega))
  · exact mesa_interp (n := 23) (by norm_num) (by norm_num) (mesa_flat (by omega)) (mesa_flat (by omega))
  · exact mesa_interp (n := 24) (by norm_num) (by norm_num) (mesa_flat (by omega)) (mesa_flat (by omega))
  · exact mesa_interp (n := 25) (by norm_num) (by norm_num) (mesa_flat (by omega)) (mesa_flat (by omega))
  · exact mesa_interp (n := 26) (by norm_num) (by norm_num) (mesa_flat (by omega)) (mesa_flat (by omega))

theorem count_halves (a : List ℝ) (v : ℝ) : a.countP (fun x => decide (v ≤ x)) + a.countP (fun x => decide (x < v)) = a.length := by
  rw [List.length_eq_countP_add_countP (fun x => decide (v ≤ x))]
  congr 1
  refine List.countP_congr fun x _ => ?_
  simp

/-- Of four resampled points one deviates by at most the upper, one by at least the lower value. -/
theorem mesa_rank {c s hi lo : ℝ} (h1 : IsRank (residuals mesaPath.z 0.225 32.775 c s) 3 hi) (h2 : IsRank (residuals mesaPath.z 0.225 32.775 c s) 31 lo)
    {l : List ℕ} (hl : l.length = 4) (hs : l.Sublist (List.range 35)) :
    (∃ j ∈ l, resample mesaPath.z 0.225 32.775 j - (c + s * j) ≤ hi) ∧ ∃ j ∈ l, lo ≤ resample mesaPath.z 0.225 32.775 j - (c + s * j) := by
  unfold residuals at h1 h2
  rw [mesa_trimmed.2] at h1 h2
  generalize hf : (fun j : ℕ => resample mesaPath.z 0.225 32.775 j - (c + s * j)) = f at *
  have ef : ∀ j, f j = resample mesaPath.z 0.225 32.775 j - (c + s * j) := fun j => by rw [← hf]
  constructor
  · by_contra h
    push Not at h
    have a : (l.map f).countP (fun x => decide (hi < x)) = 4 := by
      rw [List.countP_eq_length.2, List.length_map, hl]
      intro x hx
      obtain ⟨j, hj, rfl⟩ := List.mem_map.1 hx
      simp only [decide_eq_true_eq]
      rw [ef]; exact h j hj
    have b := (hs.map f).countP_le (p := fun x => decide (hi < x))
    have := h1.2.1
    omega
  · by_contra h
    push Not at h
    have a : (l.map f).countP (fun x => decide (x < lo)) = 4 := by
      rw [List.countP_eq_length.2, List.length_map, hl]
      intro x hx
      obtain ⟨j, hj, rfl⟩ := List.mem_map.1 hx
      simp only [decide_eq_true_eq]
      rw [ef]; exact h j hj
    have b := (hs.map f).countP_le (p := fun x => decide (x < lo))
    have t := count_halves ((List.range 35).map f) lo
    have := h2.2.2
    rw [List.length_map, List.length_range] at t
    omega

/-- The tableland makes the terrain irregular by at least its height. -/
theorem mesa_dh {L dh : ℝ} (hL : 0 ≤ L) (h : IsIrregularity mesaPath.z 0.225 32.775 L dh) : 250 ≤ dh := by
  obtain ⟨c, s, hi, lo, -, h1, h2, e⟩ := h
  rw [mesa_trimmed.1] at h1 h2
  rw [mesa_trimmed.2] at h2
  obtain ⟨p1, p2, p3⟩ := mesa_points
  obtain ⟨⟨b, hb, kb⟩, -⟩ := mesa_rank h1 h2 (l := [12, 13, 14, 15]) rfl (by decide)
  obtain ⟨-, a, ha, ka⟩ := mesa_rank h1 h2 (l := [0, 1, 2, 3]) rfl (by decide)
  obtain ⟨-, d, hd, kd⟩ := mesa_rank h1 h2 (l := [24, 25, 26, 27]) rfl (by decide)
  rw [p1 a ha] at ka
  rw [p2 b hb] at kb
  rw [p3 d hd] at kd
  have ab : (a : ℝ) ≤ b := by
    simp only [List.mem_cons, List.not_mem_nil, or_false] at ha hb
    exact_mod_cast (by omega : a ≤ b)
  have bd : (b : ℝ) ≤ d := by
    simp only [List.mem_cons, List.not_mem_nil, or_false] at hd hb
    exact_mod_cast (by omega : b ≤ d)
  have w : 250 ≤ hi - lo := by
    rcases le_total 0 s with hs | hs
    · have := mul_le_mul_of_nonneg_left bd hs; linarith
    · have := mul_le_mul_of_nonpos_left ab hs; linarith
  have E0 := Real.exp_pos (-L / 50000)
  have E1 : Real.exp (-L / 50000) ≤ 1 := Real.exp_le_one_iff.2 (div_nonpos_of_nonpos_of_nonneg (by linarith) (by norm_num))
  generalize Real.exp (-L / 50000) = E at *
  rw [e, le_div_iff₀ (by norm_num; linarith)]
  norm_num
  linarith

theorem off_grid {t : ℝ} {a : ℤ} (h1 : (a : ℝ) < t) (h2 : t < a + 1) : OffGrid t := by
  intro k e
  rw [e] at h1 h2
  have h1' : a < k := by exact_mod_cast h1
  have h2' : k < a + 1 := by exact_mod_cast h2
  omega

theorem mesa_window : min (15 * mesaPath.hg₀) (0.1 * 22000) = 450 ∧ mesaPath.len - min (15 * mesaPath.hg₁) (0.1 * 22000) = 65550 ∧
    450 / mesaPath.ξ = 0.225 ∧ 65550 / mesaPath.ξ = 32.775 ∧ 0.9 * 22000 / mesaPath.ξ = 9.9 ∧ (mesaPath.len - 0.9 * 22000) / mesaPath.ξ = 23.1 := by
  rw [mesa_ends.2.2, show mesaPath.hg₀ = 30 from rfl, show mesaPath.hg₁ = 30 from rfl, show mesaPath.ξ = 2000 from rfl]
  norm_num

theorem mesa_generic (zr dh : ℝ) : mesaPath.Generic zr dh := by
  intro θ₀ θ₁ d₀ d₁ x y H ex ey
  obtain ⟨⟨rfl, rfl⟩, rfl, rfl⟩ := mesa_horizons H
  obtain ⟨w1, w2, w3, w4, w5, w6⟩ := mesa_window
  rw [w1] at ex
  rw [w2] at ey
  subst ex ey
  refine ⟨?_, ?_, ?_, ?_, fun c => absurd c mesa_obstructed, fun c => absurd c mesa_obstructed, fun _ => ?_, fun _ => ?_⟩
  · unfold Path.Outstanding
    obtain ⟨e0, e1, e2⟩ := mesa_ends
    rw [e0, e1, e2]
    have f0 : elevation mesaK 30 66000 30 + 0 < mesaTop := by rw [add_zero]; exact mesa_far
    refine ⟨⟨fun _ => f0, fun j j1 j2 hd => ?_⟩, ⟨fun _ => f0, fun j j1 j2 hd => ?_⟩⟩
    · rw [add_zero]
      refine mesa_fwd j1 ?_
      rintro rfl
      apply hd
      show (22000 : ℝ) = ((11 : ℕ) : ℝ) * 2000; norm_num
    · rw [add_zero]
      refine mesa_bwd j2 ?_
      rintro rfl
      apply hd
      show (22000 : ℝ) = (((33 : ℕ) : ℝ) - ((22 : ℕ) : ℝ)) * 2000; norm_num
  · rw [w3]; exact off_grid (a := 0) (by norm_num) (by norm_num)
  · rw [w4]; exact off_grid (a := 32) (by norm_num) (by norm_num)
  · rw [w3, w4]; exact mesa_spread
  · rw [w5]; exact off_grid (a := 9) (by norm_num) (by norm_num)
  · rw [w6]; exact off_grid (a := 23) (by norm_num) (by norm_num)

theorem mesa_impedance {z : ℂ} (h : IsImpedance 15 0.005 400 false z) : 0.26 ≤ 1 / ‖z‖ ∧ 1 / ‖z‖ ≤ 0.27 := by
  obtain ⟨r, h1, -, h2⟩ := h
  rw [if_neg (by decide)] at h2
  subst h2
  have n : (‖z‖ ^ 2) ^ 2 = 14 ^ 2 + (376.62 * 0.005 / 400) ^ 2 := by
    rw [← norm_pow, h1, ← Complex.normSq_eq_norm_sq, Complex.normSq_apply]
    simp only [permittivity, Complex.sub_re, Complex.sub_im, Complex.one_re, Complex.one_im]
    norm_num
  have p := norm_nonneg z
  generalize ‖z‖ = s at *
  have s1 : 14 ≤ s ^ 2 := by
    by_contra c
    push Not at c
    have := pow_lt_pow_left₀ c (sq_nonneg s) (two_ne_zero)
    norm_num at *; linarith
  have s2 : s ^ 2 ≤ 14.01 := by
    by_contra c
    push Not at c
    have := pow_lt_pow_left₀ c (by norm_num) (two_ne_zero)
    norm_num at *; linarith
  have t1 : 3.74 ≤ s := by
    by_contra c
    push Not at c
    have := pow_lt_pow_left₀ c p (two_ne_zero)
    norm_num at *; linarith
  have t2 : s ≤ 3.75 := by
    by_contra c
    push Not at c
    have := pow_lt_pow_left₀ c (by norm_num) (two_ne_zero)
    norm_num at *; linarith
  have ps : 0 < s := lt_of_lt_of_le (by norm_num) t1
  constructor
  · rw [le_div_iff₀ ps]; norm_num at *; linarith
  · rw [div_le_iff₀ ps]; norm_num at *; linarith

/-- The link that follows from the profile. -/
theorem mesa_link {zr : ℝ} {G : Geometry} (hG : mesaPath.IsGeometry zr G) {z : ℂ} (hz : IsImpedance 15 0.005 400 false z) : Mesa (mesaPath.link G 400 314 z) := by
  obtain ⟨t0, t1, d0, d1, x, y, H, ex, ey, ir, -, o⟩ := hG
  obtain ⟨⟨rfl, rfl⟩, rfl, rfl⟩ := mesa_horizons H
  obtain ⟨w1, w2, w3, w4, w5, w6⟩ := mesa_window
  rw [w1] at ex
  rw [w2] at ey
  subst ex ey
  obtain ⟨⟨c, s, b0, k0⟩, ⟨c', s', b1, k1⟩, o1, o2, o3, o4⟩ := o mesa_obstructed
  unfold Path.FitOver at b0 b1
  rw [w3, w5] at b0
  rw [w6, w4] at b1
  have f1 : ⌊(0.225 : ℝ)⌋ = 0 := by rw [Int.floor_eq_iff]; norm_num
  have f2 : ⌈(9.9 : ℝ)⌉ = 10 := by rw [Int.ceil_eq_iff]; norm_num
  have f3 : ⌊(23.1 : ℝ)⌋ = 23 := by rw [Int.floor_eq_iff]; norm_num
  have f4 : ⌈(32.775 : ℝ)⌉ = 33 := by rw [Int.ceil_eq_iff]; norm_num
  rw [f1, f2] at b0
  rw [f3, f4] at b1
  obtain ⟨rfl, rfl⟩ := best_level (by decide) (fun j _ h => mesa_flat (.inl h)) b0
  obtain ⟨rfl, rfl⟩ := best_level (by decide) (fun j h _ => mesa_flat (.inr h)) b1
  unfold Path.Irregular at ir
  rw [w3, w4] at ir
  have d := ir.1 (by norm_num)
  refine ⟨rfl, rfl, ?_, ?_, o1, o2, o3, o4, rfl, mesa_dh (by norm_num) d, rfl, rfl, mesa_impedance hz⟩
  · show G.he₀ = 30
    rw [k0, mesa_flat (.inl (by omega)), sub_self, max_self, add_zero]; rfl
  · show G.he₁ = 30
    rw [k1, mesa_flat (j := mesaPath.n) (.inr (by show 23 ≤ 33; omega)), zero_mul, add_zero, sub_self, max_self, add_zero]; rfl

end Itm
