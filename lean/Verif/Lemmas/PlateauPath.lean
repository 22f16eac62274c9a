import Verif.Lemmas.Plateau
import Verif.Lemmas.MesaPath
import Verif.Spec.PimterClear

/-! The path of the campaign over the tableland: 40 samples, 1.7 km apart, of which 16 are 1000 m high. -/

namespace Itm
open Itm.Spec

/-- The profile over any arithmetic. -/
def plateauZ {β : Type} (a b : β) : List β := List.replicate 11 a ++ List.replicate 16 b ++ List.replicate 13 a

noncomputable def plateauPath (h : ℝ) : Path := campaignPath 39 1700 (plateauZ 0 1000) h

theorem plateau_z (j : ℕ) : (plateauZ (0 : ℝ) 1000).getD j 0 = if 11 ≤ j ∧ j ≤ 26 then 1000 else 0 := by
  by_cases h : j < 40
  · interval_cases j <;> simp [plateauZ, List.getD]
  · have e : (plateauZ (0 : ℝ) 1000)[j]? = none := List.getElem?_eq_none (by show 40 ≤ j; omega)
    rw [if_neg (by omega), List.getD, e]
    rfl

theorem plateau_flat {h : ℝ} {j : ℕ} (hj : j ≤ 10 ∨ 27 ≤ j) : (plateauPath h).z j = 0 := (plateau_z j).trans (if_neg (by omega))
theorem plateau_high {h : ℝ} {j : ℕ} (hj : 11 ≤ j ∧ j ≤ 26) : (plateauPath h).z j = 1000 := (plateau_z j).trans (if_pos hj)

/-- The angle under which the near edge of the tableland is seen from an antenna of height `h` at distance `s`. -/
theorem plateau_view {h s s' z : ℝ} (hh : 0 ≤ h) (h1 : h ≤ 130) (hs' : 0 < s') (s2 : s' ≤ 22100) (hs : 0 < s) (hz : z = 0 ∨ (z = 1000 ∧ s' < s)) :
    elevation mesaK h s z < elevation mesaK h s' 1000 := by
  obtain ⟨k1, k2⟩ := mesa_k
  have p := mesa_kpos
  unfold elevation
  rcases hz with rfl | ⟨rfl, c⟩
  · have a : (0 - h) / s ≤ 0 := div_nonpos_of_nonpos_of_nonneg (by linarith) hs.le
    have b : 0 ≤ mesaK / 2 * s := by positivity
    have c : 0.03 ≤ (1000 - h) / s' := by rw [le_div_iff₀ hs']; norm_num; linarith
    have d := mul_le_mul k2 s2 hs'.le (by norm_num)
    norm_num at *; linarith
  · have a : (1000 - h) / s < (1000 - h) / s' := div_lt_div_of_pos_left (by linarith) hs' c
    have b := mul_lt_mul_of_pos_left c (show 0 < mesaK / 2 by positivity)
    linarith

theorem plateau_far {h h' s' : ℝ} (hh : 0 ≤ h) (h1 : h ≤ 130) (hh' : 0 ≤ h') (h2 : h' ≤ 130) (hs' : 0 < s') (s2 : s' ≤ 22100) :
    elevation mesaK h 66300 h' < elevation mesaK h s' 1000 := by
  obtain ⟨k1, k2⟩ := mesa_k
  have p := mesa_kpos
  unfold elevation
  have c : 0.03 ≤ (1000 - h) / s' := by rw [le_div_iff₀ hs']; norm_num; linarith
  have d := mul_le_mul k2 s2 hs'.le (by norm_num)
  norm_num at *; linarith

theorem plateau_ends (h : ℝ) : (plateauPath h).z 0 + (plateauPath h).hg₀ = 2.56 ∧ (plateauPath h).z (plateauPath h).n + (plateauPath h).hg₁ = h ∧
    (plateauPath h).len = 66300 := by
  refine ⟨?_, ?_, ?_⟩
  · rw [plateau_flat (.inl (by omega)), zero_add]; rfl
  · rw [plateau_flat (j := (plateauPath h).n) (.inr (by show 27 ≤ 39; omega)), zero_add]; rfl
  · show ((39 : ℕ) : ℝ) * 1700 = 66300; norm_num

variable {h : ℝ} (r : 10 ≤ h ∧ h ≤ 130)
include r

theorem plateau_fwd {j : ℕ} (h1 : 1 ≤ j) (hj : j ≠ 11) : elevation mesaK 2.56 (j * 1700) ((plateauPath h).z j) < elevation mesaK 2.56 18700 1000 := by
  have : (1 : ℝ) ≤ j := by exact_mod_cast h1
  refine plateau_view (by norm_num) (by norm_num) (by norm_num) (by norm_num) (by linarith) ?_
  by_cases c : 11 ≤ j ∧ j ≤ 26
  · have : (12 : ℝ) ≤ j := by exact_mod_cast (by omega : 12 ≤ j)
    exact .inr ⟨plateau_high c, by linarith⟩
  · exact .inl (plateau_flat (by omega))

theorem plateau_bwd {j : ℕ} (h1 : j ≤ 38) (hj : j ≠ 26) : elevation mesaK h ((39 - j) * 1700) ((plateauPath h).z j) < elevation mesaK h 22100 1000 := by
  have : (j : ℝ) ≤ 38 := by exact_mod_cast h1
  refine plateau_view (by linarith [r.1]) r.2 (by norm_num) (by norm_num) (by linarith) ?_
  by_cases c : 11 ≤ j ∧ j ≤ 26
  · have : (j : ℝ) ≤ 25 := by exact_mod_cast (by omega : j ≤ 25)
    exact .inr ⟨plateau_high c, by linarith⟩
  · exact .inl (plateau_flat (by omega))

theorem plateau_far0 : elevation mesaK 2.56 66300 h < elevation mesaK 2.56 18700 1000 :=
  plateau_far (by norm_num) (by norm_num) (by linarith [r.1]) r.2 (by norm_num) (by norm_num)
theorem plateau_far1 : elevation mesaK h 66300 2.56 < elevation mesaK h 22100 1000 :=
  plateau_far (by linarith [r.1]) r.2 (by norm_num) (by norm_num) (by norm_num) (by norm_num)

theorem plateau_horizons {θ₀ θ₁ d₀ d₁ : ℝ} (H : (plateauPath h).Horizons θ₀ θ₁ d₀ d₁) :
    (θ₀ = elevation mesaK 2.56 18700 1000 ∧ d₀ = 18700) ∧ θ₁ = elevation mesaK h 22100 1000 ∧ d₁ = 22100 := by
  unfold Path.Horizons at H
  obtain ⟨e0, e1, e2⟩ := plateau_ends h
  rw [e0, e1, e2] at H
  obtain ⟨h0, h1⟩ := H
  have k0 : elevation mesaK 2.56 (((11 : ℕ) : ℝ) * 1700) ((plateauPath h).z 11) = elevation mesaK 2.56 18700 1000 := by
    rw [plateau_high (by omega)]; norm_num
  have k1 : elevation mesaK h ((39 - ((26 : ℕ) : ℝ)) * 1700) ((plateauPath h).z 26) = elevation mesaK h 22100 1000 := by
    rw [plateau_high (by omega)]; norm_num
  have f0 := plateau_far0 r
  have f1 := plateau_far1 r
  constructor
  · have v' : elevation mesaK 2.56 18700 1000 ≤ θ₀ := by rw [← k0]; exact h0.view_le 11 (by norm_num) (by show 11 ≤ 39 - 1; omega)
    rcases h0.attained with ⟨e, -⟩ | ⟨j, j1, j2, -, e, ed, -⟩
    · have e' : θ₀ = elevation mesaK 2.56 66300 h := e
      linarith
    · have e' : θ₀ = elevation mesaK 2.56 (j * 1700) ((plateauPath h).z j) := e
      have hj : j = 11 := by
        by_contra hj
        have := plateau_fwd r j1 hj
        linarith
      subst hj
      refine ⟨e'.trans k0, ed.trans ?_⟩
      show ((11 : ℕ) : ℝ) * 1700 = 18700; norm_num
  · have v' : elevation mesaK h 22100 1000 ≤ θ₁ := by rw [← k1]; exact h1.view_le 26 (by norm_num) (by show 26 ≤ 39 - 1; omega)
    rcases h1.attained with ⟨e, -⟩ | ⟨j, j1, j2, -, e, ed, -⟩
    · have e' : θ₁ = elevation mesaK h 66300 2.56 := e
      linarith
    · have e' : θ₁ = elevation mesaK h ((39 - j) * 1700) ((plateauPath h).z j) := e
      have hj : j = 26 := by
        by_contra hj
        have := plateau_bwd r (show j ≤ 39 - 1 from j2) hj
        linarith
      subst hj
      refine ⟨e'.trans k1, ed.trans ?_⟩
      show (((39 : ℕ) : ℝ) - ((26 : ℕ) : ℝ)) * 1700 = 22100; norm_num

theorem plateau_obstructed : ¬ (plateauPath h).Clear := by
  intro H
  have := H 11 (by norm_num) (by show 11 < 39; omega)
  rw [(plateau_ends h).1, (plateau_ends h).2.1, plateau_high (by omega)] at this
  have e : (1000 : ℝ) + mesaK / 2 * (((11 : ℕ) : ℝ) * 1700) * ((((39 : ℕ) : ℝ) - ((11 : ℕ) : ℝ)) * 1700) ≤
    (1 - ((11 : ℕ) : ℝ) / ((39 : ℕ) : ℝ)) * 2.56 + ((11 : ℕ) : ℝ) / ((39 : ℕ) : ℝ) * h := this
  norm_num at e
  linarith [mesa_kpos, r.2]

omit r in
/-- The window in sample intervals. -/
theorem plateau_window (r : 10 ≤ h ∧ h ≤ 130) : min (15 * (plateauPath h).hg₀) (0.1 * 18700) = 38.4 ∧
    (plateauPath h).len - min (15 * (plateauPath h).hg₁) (0.1 * 22100) = 66300 - 15 * h ∧
    0.9 * 18700 / (plateauPath h).ξ = 9.9 ∧ ((plateauPath h).len - 0.9 * 22100) / (plateauPath h).ξ = 27.3 := by
  rw [(plateau_ends h).2.2, show (plateauPath h).hg₀ = 2.56 from rfl, show (plateauPath h).hg₁ = h from rfl, show (plateauPath h).ξ = 1700 from rfl]
  refine ⟨by norm_num, ?_, by norm_num, by norm_num⟩
  rw [min_eq_left (by norm_num; linarith [r.2])]

theorem plateau_trimmed : trimmed (38.4 / 1700) ((66300 - 15 * h) / 1700) = 4 ∧ resampled (38.4 / 1700) ((66300 - 15 * h) / 1700) = 35 := by
  have t : trimmed (38.4 / 1700) ((66300 - 15 * h) / 1700) = 4 := by
    unfold trimmed
    have : ⌊(((66300 - 15 * h) / 1700 : ℝ) - 38.4 / 1700 + 8) / 10⌋₊ = 4 := by
      rw [Nat.floor_eq_iff (by norm_num; linarith [r.2])]
      constructor <;> (norm_num; linarith [r.1, r.2])
    rw [this]; rfl
  exact ⟨t, by unfold resampled; rw [t]⟩

omit r in
theorem plateau_spread (c : CampaignHeight h) : SpreadClear (38.4 / 1700) ((66300 - 15 * h) / 1700) := by
  obtain ⟨m, hm, rfl⟩ := c
  have m1 : (m : ℝ) ≤ 120 := by exact_mod_cast hm
  have m0 : (0 : ℝ) ≤ m := by positivity
  refine ⟨by intro e; norm_num at e; linarith, fun _ k k1 _ => ?_⟩
  have : (5 : ℝ) ≤ k := by exact_mod_cast k1
  intro e; norm_num at e; linarith

omit r in
theorem plateau_interp {t : ℝ} : (0 ≤ t → t < 10 → interp (plateauPath h).z t = 0) ∧ (11 ≤ t → t < 26 → interp (plateauPath h).z t = 1000) ∧
    (27 ≤ t → interp (plateauPath h).z t = 0) := by
  have same : ∀ v, (plateauPath h).z ⌊t⌋₊ = v → (plateauPath h).z (⌊t⌋₊ + 1) = v → interp (plateauPath h).z t = v := by
    intro v a b
    unfold interp
    rw [a, b, sub_self, zero_mul, add_zero]
  refine ⟨fun t0 t1 => ?_, fun t0 t1 => ?_, fun t0 => ?_⟩
  · have : ⌊t⌋₊ < 10 := (Nat.floor_lt t0).2 t1
    exact same 0 (plateau_flat (by omega)) (plateau_flat (by omega))
  · have a : ⌊t⌋₊ < 26 := (Nat.floor_lt (by linarith)).2 t1
    have b : 11 ≤ ⌊t⌋₊ := Nat.le_floor t0
    exact same 1000 (plateau_high (by omega)) (plateau_high (by omega))
  · have b : 27 ≤ ⌊t⌋₊ := Nat.le_floor t0
    exact same 0 (plateau_flat (by omega)) (plateau_flat (by omega))

/-- Four of the resampled points in front of, on and behind the tableland. -/
theorem plateau_points : (∀ j ∈ [0, 1, 2, 3], resample (plateauPath h).z (38.4 / 1700) ((66300 - 15 * h) / 1700) j = 0) ∧
    (∀ j ∈ [12, 13, 14, 15], resample (plateauPath h).z (38.4 / 1700) ((66300 - 15 * h) / 1700) j = 1000) ∧
    ∀ j ∈ [26, 27, 28, 29], resample (plateauPath h).z (38.4 / 1700) ((66300 - 15 * h) / 1700) j = 0 := by
  obtain ⟨r1, r2⟩ := r
  unfold resample
  rw [(plateau_trimmed ⟨r1, r2⟩).2]
  refine ⟨fun j hj => ?_, fun j hj => ?_, fun j hj => ?_⟩ <;>
    (simp only [List.mem_cons, List.not_mem_nil, or_false] at hj)
  · refine plateau_interp.1 ?_ ?_ <;> rcases hj with rfl | rfl | rfl | rfl <;> (norm_num; try linarith)
  · refine plateau_interp.2.1 ?_ ?_ <;> rcases hj with rfl | rfl | rfl | rfl <;> (norm_num; try linarith)
  · refine plateau_interp.2.2 ?_ <;> rcases hj with rfl | rfl | rfl | rfl <;> (norm_num; try linarith)

/-- Of four resampled points one deviates by at most the upper, one by at least the lower value. -/
theorem plateau_rank {c s hi lo : ℝ} (h1 : IsRank (residuals (plateauPath h).z (38.4 / 1700) ((66300 - 15 * h) / 1700) c s) 3 hi)
    (h2 : IsRank (residuals (plateauPath h).z (38.4 / 1700) ((66300 - 15 * h) / 1700) c s) 31 lo) {l : List ℕ} (hl : l.length = 4) (hs : l.Sublist (List.range 35)) :
    (∃ j ∈ l, resample (plateauPath h).z (38.4 / 1700) ((66300 - 15 * h) / 1700) j - (c + s * j) ≤ hi) ∧
      ∃ j ∈ l, lo ≤ resample (plateauPath h).z (38.4 / 1700) ((66300 - 15 * h) / 1700) j - (c + s * j) := by
  unfold residuals at h1 h2
  rw [(plateau_trimmed r).2] at h1 h2
  generalize hf : (fun j : ℕ => resample (plateauPath h).z (38.4 / 1700) ((66300 - 15 * h) / 1700) j - (c + s * j)) = f at *
  have ef : ∀ j, f j = resample (plateauPath h).z (38.4 / 1700) ((66300 - 15 * h) / 1700) j - (c + s * j) := fun j => by rw [← hf]
  constructor
  · by_contra H
    push Not at H
    have a : (l.map f).countP (fun x => decide (hi < x)) = 4 := by
      rw [List.countP_eq_length.2, List.length_map, hl]
      intro x hx
      obtain ⟨j, hj, rfl⟩ := List.mem_map.1 hx
      simp only [decide_eq_true_eq]
      rw [ef]; exact H j hj
    have b := (hs.map f).countP_le (p := fun x => decide (hi < x))
    have := h1.2.1
    omega
  · by_contra H
    push Not at H
    have a : (l.map f).countP (fun x => decide (x < lo)) = 4 := by
      rw [List.countP_eq_length.2, List.length_map, hl]
      intro x hx
      obtain ⟨j, hj, rfl⟩ := List.mem_map.1 hx
      simp only [decide_eq_true_eq]
      rw [ef]; exact H j hj
    have b := (hs.map f).countP_le (p := fun x => decide (x < lo))
    have t := count_halves ((List.range 35).map f) lo
    have := h2.2.2
    rw [List.length_map, List.length_range] at t
    omega

/-- The tableland makes the terrain irregular by at least its height. -/
theorem plateau_dh {L dh : ℝ} (hL : 0 ≤ L) (H : IsIrregularity (plateauPath h).z (38.4 / 1700) ((66300 - 15 * h) / 1700) L dh) : 1000 ≤ dh := by
  obtain ⟨c, s, hi, lo, -, h1, h2, e⟩ := H
  rw [(plateau_trimmed r).1] at h1 h2
  rw [(plateau_trimmed r).2] at h2
  obtain ⟨p1, p2, p3⟩ := plateau_points r
  obtain ⟨⟨b, hb, kb⟩, -⟩ := plateau_rank r h1 h2 (l := [12, 13, 14, 15]) rfl (by decide)
  obtain ⟨-, a, ha, ka⟩ := plateau_rank r h1 h2 (l := [0, 1, 2, 3]) rfl (by decide)
  obtain ⟨-, d, hd, kd⟩ := plateau_rank r h1 h2 (l := [26, 27, 28, 29]) rfl (by decide)
  rw [p1 a ha] at ka
  rw [p2 b hb] at kb
  rw [p3 d hd] at kd
  have ab : (a : ℝ) ≤ b := by
    simp only [List.mem_cons, List.not_mem_nil, or_false] at ha hb
    exact_mod_cast (by omega : a ≤ b)
  have bd : (b : ℝ) ≤ d := by
    simp only [List.mem_cons, List.not_mem_nil, or_false] at hd hb
    exact_mod_cast (by omega : b ≤ d)
  have w : 1000 ≤ hi - lo := by
    rcases le_total 0 s with hs | hs
    · have := mul_le_mul_of_nonneg_left bd hs; linarith
    · have := mul_le_mul_of_nonpos_left ab hs; linarith
  have E0 := Real.exp_pos (-L / 50000)
  have E1 : Real.exp (-L / 50000) ≤ 1 := Real.exp_le_one_iff.2 (div_nonpos_of_nonpos_of_nonneg (by linarith) (by norm_num))
  generalize Real.exp (-L / 50000) = E at *
  rw [e, le_div_iff₀ (by norm_num; linarith)]
  norm_num
  linarith

omit r in
theorem plateau_range (c : CampaignHeight h) : 10 ≤ h ∧ h ≤ 130 := by
  obtain ⟨m, hm, rfl⟩ := c
  have m1 : (m : ℝ) ≤ 120 := by exact_mod_cast hm
  have m0 : (0 : ℝ) ≤ m := by positivity
  constructor <;> linarith

omit r in
theorem plateau_generic (c : CampaignHeight h) (zr dh : ℝ) : (plateauPath h).Generic zr dh := by
  have r := plateau_range c
  intro θ₀ θ₁ d₀ d₁ x y H ex ey
  obtain ⟨⟨rfl, rfl⟩, rfl, rfl⟩ := plateau_horizons r H
  obtain ⟨w1, w2, w5, w6⟩ := plateau_window r
  have nc := plateau_obstructed r
  rw [w1] at ex
  rw [w2] at ey
  subst ex ey
  refine ⟨?_, ?_, ?_, ?_, fun c => absurd c nc, fun c => absurd c nc, fun _ => ?_, fun _ => ?_⟩
  · unfold Path.Outstanding
    obtain ⟨e0, e1, e2⟩ := plateau_ends h
    rw [e0, e1, e2]
    refine ⟨⟨fun _ => ?_, fun j j1 j2 hd => ?_⟩, ⟨fun _ => ?_, fun j j1 j2 hd => ?_⟩⟩
    · rw [add_zero]; exact plateau_far0 r
    · rw [add_zero]
      refine plateau_fwd r j1 ?_
      rintro rfl
      apply hd
      show (18700 : ℝ) = ((11 : ℕ) : ℝ) * 1700; norm_num
    · rw [add_zero]; exact plateau_far1 r
    · rw [add_zero]
      refine plateau_bwd r j2 ?_
      rintro rfl
      apply hd
      show (22100 : ℝ) = (((39 : ℕ) : ℝ) - ((26 : ℕ) : ℝ)) * 1700; norm_num
  · show OffGrid (38.4 / 1700); exact off_grid (a := 0) (by norm_num) (by norm_num)
  · show OffGrid ((66300 - 15 * h) / 1700)
    obtain ⟨m, hm, rfl⟩ := c
    intro k e
    have e' : ((66300 - 15 * (10 + m) : ℤ) : ℝ) = ((1700 * k : ℤ) : ℝ) := by
      push_cast; rw [← e]; ring
    have e'' : (66300 - 15 * (10 + m) : ℤ) = 1700 * k := by exact_mod_cast e'
    omega
  · exact plateau_spread c
  · rw [w5]; exact off_grid (a := 9) (by norm_num) (by norm_num)
  · rw [w6]; exact off_grid (a := 27) (by norm_num) (by norm_num)

omit r in
theorem plateau_impedance {z : ℂ} (H : IsImpedance 15 0.005 (24880 / 477) true z) : 4 ≤ 1 / ‖z‖ ∧ 1 / ‖z‖ ≤ 4.02 := by
  obtain ⟨r, h1, -, h2⟩ := H
  rw [if_pos rfl] at h2
  subst h2
  have n : (‖r‖ ^ 2) ^ 2 = 14 ^ 2 + (376.62 * 0.005 / (24880 / 477)) ^ 2 := by
    rw [← norm_pow, h1, ← Complex.normSq_eq_norm_sq, Complex.normSq_apply]
    simp only [permittivity, Complex.sub_re, Complex.sub_im, Complex.one_re, Complex.one_im]
    norm_num
  have q : ‖permittivity 15 0.005 (24880 / 477)‖ ^ 2 = 15 ^ 2 + (376.62 * 0.005 / (24880 / 477)) ^ 2 := by
    rw [← Complex.normSq_eq_norm_sq, Complex.normSq_apply]
    simp only [permittivity]
    norm_num
  have p := norm_nonneg r
  have p' := norm_nonneg (permittivity 15 0.005 (24880 / 477))
  rw [norm_div, one_div_div]
  generalize ‖r‖ = s at *
  generalize ‖permittivity 15 0.005 (24880 / 477)‖ = t at *
  have s1 : 14 ≤ s ^ 2 := by
    by_contra c
    push Not at c
    have := pow_lt_pow_left₀ c (sq_nonneg s) (two_ne_zero)
    norm_num at *; linarith
  have s2 : s ^ 2 ≤ 14.01 := by
    by_contra c
    push Not at c
    have := pow_lt_pow_left₀ c (by norm_num) (two_ne_zero)
    norm_num at *; linarith
  have t1 : 3.741 ≤ s := by
    by_contra c
    push Not at c
    have := pow_lt_pow_left₀ c p (two_ne_zero)
    norm_num at *; linarith
  have t2 : s ≤ 3.743 := by
    by_contra c
    push Not at c
    have := pow_lt_pow_left₀ c (by norm_num) (two_ne_zero)
    norm_num at *; linarith
  have u1 : 15 ≤ t := by
    by_contra c
    push Not at c
    have := pow_lt_pow_left₀ c p' (two_ne_zero)
    norm_num at *; linarith
  have u2 : t ≤ 15.01 := by
    by_contra c
    push Not at c
    have := pow_lt_pow_left₀ c (by norm_num) (two_ne_zero)
    norm_num at *; linarith
  have ps : 0 < s := lt_of_lt_of_le (by norm_num) t1
  constructor
  · rw [le_div_iff₀ ps]; norm_num at *; linarith
  · rw [div_le_iff₀ ps]; norm_num at *; linarith

omit r in
theorem plateau_wn : waveNumber 2488 = 24880 / 477 := by unfold waveNumber; norm_num

/-- The link that follows from the profile. -/
theorem plateau_link {zr : ℝ} {G : Geometry} (hG : (plateauPath h).IsGeometry zr G) {z : ℂ} (hz : IsImpedance 15 0.005 (waveNumber 2488) true z) :
    Plateau h ((plateauPath h).link G (waveNumber 2488) 314 z) := by
  obtain ⟨t0, t1, d0, d1, x, y, H, ex, ey, ir, -, o⟩ := hG
  obtain ⟨⟨rfl, rfl⟩, rfl, rfl⟩ := plateau_horizons r H
  obtain ⟨w1, w2, w5, w6⟩ := plateau_window r
  rw [w1] at ex
  rw [w2] at ey
  subst ex ey
  obtain ⟨⟨c, s, b0, k0⟩, ⟨c', s', b1, k1⟩, o1, o2, o3, o4⟩ := o (plateau_obstructed r)
  have ξ : (plateauPath h).ξ = 1700 := rfl
  unfold Path.FitOver at b0 b1
  rw [w5, ξ] at b0
  rw [w6, ξ] at b1
  have f1 : ⌊(38.4 / 1700 : ℝ)⌋ = 0 := by rw [Int.floor_eq_iff]; norm_num
  have f2 : ⌈(9.9 : ℝ)⌉ = 10 := by rw [Int.ceil_eq_iff]; norm_num
  have f3 : ⌊(27.3 : ℝ)⌋ = 27 := by rw [Int.floor_eq_iff]; norm_num
  have f4 : 37 < ⌈((66300 - 15 * h) / 1700 : ℝ)⌉ := by rw [Int.lt_ceil]; norm_num; linarith [r.2]
  rw [f1, f2] at b0
  rw [f3] at b1
  obtain ⟨rfl, rfl⟩ := best_level (by decide) (fun j _ hj => plateau_flat (.inl hj)) b0
  obtain ⟨rfl, rfl⟩ := best_level (by omega) (fun j hj _ => plateau_flat (.inr hj)) b1
  unfold Path.Irregular at ir
  rw [ξ] at ir
  have d := ir.1 (by norm_num; linarith [r.2])
  refine ⟨r, rfl, rfl, ?_, ?_, o1, o2, o3.trans ?_, o4.trans ?_, plateau_wn, plateau_dh r (by norm_num; linarith [r.2]) d, rfl, rfl, ?_⟩
  · show G.he₀ = 2.56
    rw [k0, plateau_flat (.inl (by omega)), sub_self, max_self, add_zero]; rfl
  · show G.he₁ = h
    rw [k1, plateau_flat (j := (plateauPath h).n) (.inr (by show 27 ≤ 39; omega)), zero_mul, add_zero, sub_self, max_self, add_zero]; rfl
  · unfold elevation; norm_num; ring
  · unfold elevation; ring
  · rw [plateau_wn] at hz
    exact plateau_impedance hz

end Itm
