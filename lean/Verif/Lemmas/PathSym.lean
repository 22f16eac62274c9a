import Verif.Spec.PathSym
import Verif.Lemmas.Zlsq

/-! The path parameters under a change of datum and under reversal. -/

namespace Itm
open Spec Finset

/-! ### Datum -/

theorem lineErr_shift (z : ℕ → ℝ) (a m : ℕ) (c s k : ℝ) : lineErr (fun j => z j + k) a m (c + k) s = lineErr z a m c s := by
  unfold lineErr trap
  refine Finset.sum_congr rfl fun i _ => ?_
  ring

theorem best_shift {z : ℕ → ℝ} {a m : ℕ} {c s k : ℝ} (h : BestLine z a m c s) : BestLine (fun j => z j + k) a m (c + k) s := by
  intro c' s'
  have := h (c' - k) s'
  rw [lineErr_shift]
  rwa [← lineErr_shift z a m (c' - k) s' k, sub_add_cancel] at this

theorem interp_shift (z : ℕ → ℝ) (k t : ℝ) : interp (fun j => z j + k) t = interp z t + k := by
  unfold interp; ring

theorem irregularity_shift {z : ℕ → ℝ} {xa xb L v k : ℝ} (h : IsIrregularity z xa xb L v) : IsIrregularity (fun j => z j + k) xa xb L v := by
  obtain ⟨c, s, hi, lo, hb, h1, h2, h3⟩ := h
  have e : resample (fun j => z j + k) xa xb = fun j => resample z xa xb j + k := by
    funext j; unfold resample; rw [interp_shift]
  have er : residuals (fun j => z j + k) xa xb (c + k) s = residuals z xa xb c s := by
    unfold residuals
    rw [e]
    refine List.map_congr_left fun j _ => ?_
    ring
  refine ⟨c + k, s, hi, lo, ?_, ?_, ?_, h3⟩
  · rw [e]; exact best_shift hb
  · rw [er]; exact h1
  · rw [er]; exact h2

theorem elevation_shift (κ h s z k : ℝ) : elevation κ (h + k) s (z + k) = elevation κ h s z := by
  unfold elevation; ring

theorem fit_shift {P : Path} {x y c s k : ℝ} (h : P.FitOver x y c s) : (P.shift k).FitOver x y (c + k) s := best_shift h

theorem clear_shift (P : Path) (k : ℝ) : (P.shift k).Clear ↔ P.Clear := by
  unfold Path.Clear Path.shift
  refine forall_congr' fun j => forall_congr' fun _ => forall_congr' fun _ => ?_
  dsimp only
  constructor <;> intro h <;> linarith

theorem isGeometry_shift {P : Path} {zr : ℝ} {G : Geometry} (k : ℝ) (h : P.IsGeometry zr G) : (P.shift k).IsGeometry (zr + k) G := by
  obtain ⟨θ₀, θ₁, d₀, d₁, x, y, ⟨H1, H2⟩, hx, hy, ⟨i1, i2⟩, hc, ho⟩ := h
  refine ⟨θ₀, θ₁, d₀, d₁, x, y, ⟨?_, ?_⟩, hx, hy, ⟨fun h => irregularity_shift (i1 h), i2⟩, fun h => ?_, fun h => ?_⟩
  · convert H1 using 1
    · funext j
      show elevation P.κ (P.z 0 + k + P.hg₀) _ (P.z j + k) = _
      rw [add_right_comm, elevation_shift]
      rfl
    · show elevation P.κ (P.z 0 + k + P.hg₀) P.len (P.z P.n + k + P.hg₁) = _
      rw [add_right_comm, add_right_comm _ k, elevation_shift]
    all_goals rfl
  · convert H2 using 1
    · funext j
      show elevation P.κ (P.z P.n + k + P.hg₁) _ (P.z j + k) = _
      rw [add_right_comm, elevation_shift]
      rfl
    · show elevation P.κ (P.z P.n + k + P.hg₁) P.len (P.z 0 + k + P.hg₀) = _
      rw [add_right_comm, add_right_comm _ k, elevation_shift]
    all_goals rfl
  · obtain ⟨c, s, hf, hg⟩ := hc ((clear_shift P k).1 h)
    refine ⟨c + k, s, fit_shift hf, ?_⟩
    have e1 : (P.shift k).z 0 - (c + k) = P.z 0 - c := by show P.z 0 + k - (c + k) = _; ring
    have e2 : zr + k - (c + k + s * (P.shift k).n) = zr - (c + s * P.n) := by show zr + k - (c + k + s * P.n) = _; ring
    rw [e1, e2]
    exact hg
  · obtain ⟨⟨c, s, hf, hg⟩, ⟨c', s', hf', hg'⟩, hr⟩ := ho (fun h' => h ((clear_shift P k).2 h'))
    refine ⟨⟨c + k, s, fit_shift hf, ?_⟩, ⟨c' + k, s', fit_shift hf', ?_⟩, hr⟩
    · rw [hg]
      show _ = P.hg₀ + max (P.z 0 + k - (c + k)) 0
      rw [show P.z 0 + k - (c + k) = P.z 0 - c by ring]
    · rw [hg']
      show _ = P.hg₁ + max (P.z P.n + k - (c' + k + s' * P.n)) 0
      rw [show P.z P.n + k - (c' + k + s' * P.n) = P.z P.n - (c' + s' * P.n) by ring]

/-! ### Reversal -/

theorem lineErr_rev (z : ℕ → ℝ) {n a m : ℕ} (h : a + m ≤ n) (c s : ℝ) :
    lineErr (fun j => z (n - j)) a m c s = lineErr z (n - a - m) m (c + s * n) (-s) := by
  unfold lineErr trap
  rw [← Finset.sum_range_reflect]
  refine Finset.sum_congr rfl fun i hi => ?_
  rw [Finset.mem_range] at hi
  have e1 : n - (a + (m - 1 - i)) = n - a - m + i + 1 := by omega
  have e2 : n - (a + (m - 1 - i) + 1) = n - a - m + i := by omega
  have c1 : ((n - a - m + i + 1 : ℕ) : ℝ) = n - ((a + (m - 1 - i) : ℕ) : ℝ) := by
    rw [← e1, Nat.cast_sub (by omega)]
  have c2 : ((n - a - m + i : ℕ) : ℝ) = n - ((a + (m - 1 - i) + 1 : ℕ) : ℝ) := by
    rw [← e2, Nat.cast_sub (by omega)]
  dsimp only
  rw [e1, e2, c1, c2]
  ring

theorem best_rev {z : ℕ → ℝ} {n a m : ℕ} (h : a + m ≤ n) {c s : ℝ} (hb : BestLine z (n - a - m) m c s) :
    BestLine (fun j => z (n - j)) a m (c + s * n) (-s) := by
  intro c' s'
  rw [lineErr_rev z h, lineErr_rev z h]
  have := hb (c' + s' * n) (-s')
  rwa [show c + s * n + -s * n = c by ring, neg_neg]

theorem isHorizon_rev {view pos : ℕ → ℝ} {far full θ d : ℝ} {n : ℕ} (hp : OnePeak view (n - 1))
    (h : IsHorizon view far pos full (n - 1) θ d) :
    IsHorizon (fun j => view (n - j)) far (fun j => pos (n - j)) full (n - 1) θ d := by
  refine ⟨h.far_le, fun j h1 h2 => h.view_le _ (by omega) (by omega), ?_⟩
  rcases h.attained with h' | ⟨j, h1, h2, h3, h4, h5, h6⟩
  · exact .inl h'
  · refine .inr ⟨n - j, by omega, by omega, ?_, ?_, ?_, ?_⟩
    · rwa [show n - (n - j) = j by omega]
    · rwa [show n - (n - j) = j by omega]
    · rwa [show n - (n - j) = j by omega]
    · intro i i1 i2
      rw [show n - (n - j) = j by omega]
      have hle : view (n - i) ≤ view j := by rw [← h4]; exact h.view_le _ (by omega) (by omega)
      refine lt_of_le_of_ne hle fun he => ?_
      have := hp j (n - i) h1 h2 (by omega) (by omega) (fun k k1 k2 => by rw [← h4]; exact h.view_le _ k1 k2) he
      omega

theorem interp_rev (z : ℕ → ℝ) {n : ℕ} {t : ℝ} (h0 : 0 ≤ t) (h1 : t ≤ n) : interp (fun j => z (n - j)) t = interp z (n - t) := by
  unfold interp
  have hf := Nat.floor_le h0
  have hf2 := Nat.lt_floor_add_one t
  have hfn : ⌊t⌋₊ ≤ n := by
    have : ((⌊t⌋₊ : ℕ) : ℝ) ≤ n := hf.trans h1
    exact_mod_cast this
  have hfr : Int.fract t = t - ⌊t⌋₊ := by
    rw [Int.fract, natCast_floor_eq_intCast_floor h0]
  rcases hf.eq_or_lt with he | hlt
  · have hi : (n : ℝ) - t = ((n - ⌊t⌋₊ : ℕ) : ℝ) := by rw [Nat.cast_sub hfn, he]
    rw [hi, Nat.floor_natCast, Int.fract_natCast, mul_zero, add_zero, hfr, he, sub_self, mul_zero, add_zero]
  · have hlt' : ⌊t⌋₊ < n := by
      have : ((⌊t⌋₊ : ℕ) : ℝ) < n := hlt.trans_le h1
      exact_mod_cast this
    have e : ⌊(n : ℝ) - t⌋₊ = n - ⌊t⌋₊ - 1 := by
      rw [Nat.floor_eq_iff (by linarith)]
      rw [show n - ⌊t⌋₊ - 1 = n - (⌊t⌋₊ + 1) by omega, Nat.cast_sub (by omega)]
      push_cast
      constructor <;> linarith
    have hfr2 : Int.fract ((n : ℝ) - t) = n - t - ((n - ⌊t⌋₊ - 1 : ℕ) : ℝ) := by
      rw [Int.fract, ← e, natCast_floor_eq_intCast_floor (by linarith)]
    dsimp only
    rw [hfr2, e, hfr, show n - (⌊t⌋₊ + 1) = n - ⌊t⌋₊ - 1 by omega, show n - ⌊t⌋₊ - 1 + 1 = n - ⌊t⌋₊ by omega]
    rw [show n - ⌊t⌋₊ - 1 = n - (⌊t⌋₊ + 1) by omega, Nat.cast_sub (by omega)]
    push_cast
    ring

theorem resampled_pos (xa xb : ℝ) : 35 ≤ resampled xa xb := by
  unfold resampled trimmed
  omega

theorem rank_perm {a b : List ℝ} (h : a.Perm b) {k : ℕ} {v : ℝ} (hr : IsRank a k v) : IsRank b k v := by
  obtain ⟨h1, h2, h3⟩ := hr
  exact ⟨h.mem_iff.1 h1, by rwa [← h.countP_eq], by rwa [← h.countP_eq]⟩

theorem irregularity_rev {z : ℕ → ℝ} {n : ℕ} {xa xb L v : ℝ} (h0 : 0 ≤ xa) (hab : xa ≤ xb) (hn : xb ≤ n)
    (h : IsIrregularity z (n - xb) (n - xa) L v) : IsIrregularity (fun j => z (n - j)) xa xb L v := by
  obtain ⟨c, s, hi, lo, hb, h1, h2, h3⟩ := h
  have ew : (n : ℝ) - xa - (n - xb) = xb - xa := by ring
  have et : trimmed (n - xb) (n - xa) = trimmed xa xb := by unfold trimmed; rw [ew]
  have er : resampled (n - xb) (n - xa) = resampled xa xb := by unfold resampled; rw [et]
  have hR := resampled_pos xa xb
  rw [et] at h1 h2
  rw [er] at hb h2
  obtain ⟨J, hJ⟩ : ∃ J, J = resampled xa xb - 1 := ⟨_, rfl⟩
  have hJR : resampled xa xb = J + 1 := by omega
  have hJ0 : (0 : ℝ) < J := by
    have : 0 < J := by omega
    exact_mod_cast this
  have key : ∀ j, j ≤ J → resample (fun j => z (n - j)) xa xb j = resample z (n - xb) (n - xa) (J - j) := by
    intro j hj
    unfold resample
    rw [er, ew, hJR]
    have hjJ : (j : ℝ) ≤ J := by exact_mod_cast hj
    have hj0 : (0 : ℝ) ≤ j := by positivity
    have q0 : 0 ≤ (xb - xa) / (((J + 1 : ℕ) : ℝ) - 1) := by
      push_cast
      rw [add_sub_cancel_right]
      exact div_nonneg (by linarith) hJ0.le
    have q1 : (J : ℝ) * ((xb - xa) / (((J + 1 : ℕ) : ℝ) - 1)) = xb - xa := by
      push_cast
      rw [add_sub_cancel_right]
      field_simp
    generalize (xb - xa) / (((J + 1 : ℕ) : ℝ) - 1) = w at q0 q1
    have : (j : ℝ) * w ≤ J * w := mul_le_mul_of_nonneg_right hjJ q0
    rw [interp_rev z (by positivity) (by linarith)]
    congr 1
    rw [Nat.cast_sub hj]
    linarith
  refine ⟨c + s * J, -s, hi, lo, ?_, ?_, ?_, h3⟩
  · rw [← hJ] at hb ⊢
    have := best_rev (z := resample z (n - xb) (n - xa)) (n := J) (a := 0) (m := J) (by omega) (c := c) (s := s) (by simpa using hb)
    intro c' s'
    have e : ∀ c s, lineErr (resample (fun j => z (n - j)) xa xb) 0 J c s = lineErr (fun j => resample z (n - xb) (n - xa) (J - j)) 0 J c s := by
      intro c s
      unfold lineErr trap
      refine Finset.sum_congr rfl fun i hi => ?_
      rw [Finset.mem_range] at hi
      dsimp only
      rw [key _ (by omega), key _ (by omega)]
    rw [e, e]
    exact this c' s'
  all_goals
    have hperm : (residuals z (n - xb) (n - xa) c s).Perm (residuals (fun j => z (n - j)) xa xb (c + s * J) (-s)) := by
      have : residuals (fun j => z (n - j)) xa xb (c + s * J) (-s) = (residuals z (n - xb) (n - xa) c s).reverse := by
        unfold residuals
        rw [er, hJR]
        refine List.ext_getElem (by simp) fun k k1 k2 => ?_
        simp only [List.length_map, List.length_range] at k1
        rw [List.getElem_reverse, List.getElem_map, List.getElem_map, List.getElem_range, List.getElem_range, key k (by omega)]
        simp only [List.length_map, List.length_range]
        rw [show J + 1 - 1 - k = J - k by omega, Nat.cast_sub (by omega)]
        ring
      rw [this]
      exact (List.reverse_perm _).symm
    first
    | exact rank_perm hperm h1
    | exact rank_perm hperm h2

/-! ### Only the points of the path matter -/

theorem horizon_bounds {P : Path} {θ₀ θ₁ d₀ d₁ : ℝ} (hn : 1 ≤ P.n) (hx : 0 < P.ξ) (H : P.Horizons θ₀ θ₁ d₀ d₁) :
    (0 < d₀ ∧ d₀ ≤ P.len) ∧ 0 < d₁ ∧ d₁ ≤ P.len := by
  obtain ⟨H0, H1⟩ := H
  have hn' : (0 : ℝ) < P.n := by exact_mod_cast hn
  have hD : 0 < P.len := mul_pos hn' hx
  constructor
  · rcases H0.attained with ⟨-, e⟩ | ⟨j, j1, j2, -, -, e, -⟩
    · rw [e]; exact ⟨hD, le_rfl⟩
    · rw [e]
      have : (0 : ℝ) < j := by exact_mod_cast j1
      have : (j : ℝ) ≤ P.n := by exact_mod_cast (by omega : j ≤ P.n)
      exact ⟨by positivity, mul_le_mul_of_nonneg_right this hx.le⟩
  · rcases H1.attained with ⟨-, e⟩ | ⟨j, j1, j2, -, -, e, -⟩
    · rw [e]; exact ⟨hD, le_rfl⟩
    · rw [e]
      have : (1 : ℝ) ≤ j := by exact_mod_cast j1
      have : (j : ℝ) + 1 ≤ P.n := by exact_mod_cast (by omega : j + 1 ≤ P.n)
      exact ⟨mul_pos (by linarith) hx, mul_le_mul_of_nonneg_right (by linarith) hx.le⟩

theorem window_bounds {P : Path} {θ₀ θ₁ d₀ d₁ x y : ℝ} (hn : 1 ≤ P.n) (hx : 0 < P.ξ) (hg0 : 0 < P.hg₀) (hg1 : 0 < P.hg₁)
    (H : P.Horizons θ₀ θ₁ d₀ d₁) (ex : x = min (15 * P.hg₀) (0.1 * d₀)) (ey : y = P.len - min (15 * P.hg₁) (0.1 * d₁)) :
    0 < x ∧ x < y ∧ y < P.len ∧ x < 0.9 * d₀ ∧ 0.9 * d₀ ≤ P.len ∧ 0 ≤ P.len - 0.9 * d₁ ∧ P.len - 0.9 * d₁ < y := by
  obtain ⟨⟨a, b⟩, c, d⟩ := horizon_bounds hn hx H
  have p0 : 0 < min (15 * P.hg₀) (0.1 * d₀) := lt_min (by linarith) (by norm_num; linarith)
  have p1 : 0 < min (15 * P.hg₁) (0.1 * d₁) := lt_min (by linarith) (by norm_num; linarith)
  have m0 := min_le_right (15 * P.hg₀) (0.1 * d₀)
  have m1 := min_le_right (15 * P.hg₁) (0.1 * d₁)
  rw [← ex] at p0 m0
  generalize min (15 * P.hg₁) (0.1 * d₁) = m at *
  norm_num at *
  refine ⟨p0, ?_, ?_, ?_, ?_, ?_, ?_⟩ <;> linarith

theorem best_congr {z z' : ℕ → ℝ} {n a m : ℕ} (hz : ∀ j ≤ n, z j = z' j) (ham : a + m ≤ n) {c s : ℝ} (h : BestLine z a m c s) :
    BestLine z' a m c s := by
  have e : ∀ c s, lineErr z' a m c s = lineErr z a m c s := by
    intro c s
    unfold lineErr trap
    refine Finset.sum_congr rfl fun i hi => ?_
    rw [Finset.mem_range] at hi
    dsimp only
    rw [hz _ (by omega), hz _ (by omega)]
  intro c' s'
  rw [e, e]
  exact h c' s'

theorem fit_congr {P P' : Path} {x y c s : ℝ} (en : P'.n = P.n) (ex : P'.ξ = P.ξ) (hz : ∀ j ≤ P.n, P.z j = P'.z j) (hx : 0 < P.ξ)
    (h0 : 0 ≤ x) (hxy : x ≤ y) (hy : y ≤ P.len) (h : P.FitOver x y c s) : P'.FitOver x y c s := by
  unfold Path.FitOver at *
  rw [ex]
  refine best_congr hz ?_ h
  have a := Int.floor_le (x / P.ξ)
  have a' : 0 ≤ ⌊x / P.ξ⌋ := Int.floor_nonneg.2 (by positivity)
  have b : ⌈y / P.ξ⌉ ≤ P.n := by
    rw [Int.ceil_le, div_le_iff₀ hx]
    exact_mod_cast hy
  have ab : ⌊x / P.ξ⌋ ≤ ⌈y / P.ξ⌉ := by
    have b := Int.le_ceil (y / P.ξ)
    have c : x / P.ξ ≤ y / P.ξ := by gcongr
    have : ((⌊x / P.ξ⌋ : ℤ) : ℝ) ≤ ((⌈y / P.ξ⌉ : ℤ) : ℝ) := by linarith
    exact_mod_cast this
  omega

theorem interp_congr {z z' : ℕ → ℝ} {n : ℕ} (hz : ∀ j ≤ n, z j = z' j) {t : ℝ} (h0 : 0 ≤ t) (h1 : t ≤ n) : interp z t = interp z' t := by
  unfold interp
  have hf := Nat.floor_le h0
  have hfn : ⌊t⌋₊ ≤ n := by
    have : ((⌊t⌋₊ : ℕ) : ℝ) ≤ n := hf.trans h1
    exact_mod_cast this
  rw [hz _ hfn]
  rcases hfn.eq_or_lt with he | hlt
  · have : t = (n : ℝ) := le_antisymm h1 (by rw [← he]; exact hf)
    rw [this, Int.fract_natCast, mul_zero, mul_zero]
  · rw [hz _ hlt]

theorem sample_bounds {xa xb : ℝ} {n j : ℕ} (h0 : 0 ≤ xa) (hab : xa ≤ xb) (hn : xb ≤ n) (hj : j < resampled xa xb) :
    0 ≤ xa + j * ((xb - xa) / ((resampled xa xb : ℝ) - 1)) ∧ xa + j * ((xb - xa) / ((resampled xa xb : ℝ) - 1)) ≤ n := by
  have hR : (35 : ℝ) ≤ resampled xa xb := by exact_mod_cast resampled_pos xa xb
  have hj' : (j : ℝ) ≤ resampled xa xb - 1 := by
    have : (j : ℝ) + 1 ≤ resampled xa xb := by exact_mod_cast hj
    linarith
  have q0 : 0 ≤ (xb - xa) / ((resampled xa xb : ℝ) - 1) := div_nonneg (by linarith) (by linarith)
  have q1 : ((resampled xa xb : ℝ) - 1) * ((xb - xa) / ((resampled xa xb : ℝ) - 1)) = xb - xa := by
    have : (resampled xa xb : ℝ) - 1 ≠ 0 := by linarith
    field_simp
  have := mul_le_mul_of_nonneg_right hj' q0
  exact ⟨by positivity, by linarith⟩

theorem irregularity_congr {z z' : ℕ → ℝ} {n : ℕ} (hz : ∀ j ≤ n, z j = z' j) {xa xb L v : ℝ} (h0 : 0 ≤ xa) (hab : xa ≤ xb) (hn : xb ≤ n)
    (h : IsIrregularity z xa xb L v) : IsIrregularity z' xa xb L v := by
  obtain ⟨c, s, hi, lo, hb, h1, h2, h3⟩ := h
  have key : ∀ j < resampled xa xb, resample z xa xb j = resample z' xa xb j := by
    intro j hj
    obtain ⟨a, b⟩ := sample_bounds h0 hab hn hj
    exact interp_congr hz a b
  have er : residuals z' xa xb c s = residuals z xa xb c s := by
    unfold residuals
    refine List.map_congr_left fun j hj => ?_
    rw [key j (List.mem_range.1 hj)]
  have := resampled_pos xa xb
  refine ⟨c, s, hi, lo, best_congr (n := resampled xa xb - 1) (fun j hj => key j (by omega)) (by omega) hb, ?_, ?_, h3⟩ <;> rw [er] <;> assumption

theorem isGeometry_congr {P P' : Path} {zr : ℝ} {G : Geometry} (hn : 1 ≤ P.n) (hx : 0 < P.ξ) (hg0 : 0 < P.hg₀) (hg1 : 0 < P.hg₁)
    (en : P'.n = P.n) (ex : P'.ξ = P.ξ) (eκ : P'.κ = P.κ) (e0 : P'.hg₀ = P.hg₀) (e1 : P'.hg₁ = P.hg₁) (hz : ∀ j ≤ P.n, P.z j = P'.z j)
    (h : P.IsGeometry zr G) : P'.IsGeometry zr G := by
  obtain ⟨θ₀, θ₁, d₀, d₁, x, y, H, hx', hy, ⟨i1, i2⟩, hc, ho⟩ := h
  obtain ⟨w1, w2, w3, w4, w5, w6, w7⟩ := window_bounds hn hx hg0 hg1 H hx' hy
  have elen : P'.len = P.len := by unfold Path.len; rw [en, ex]
  have yn : y / P.ξ ≤ P.n := by rw [div_le_iff₀ hx]; exact w3.le
  have hor : ∀ (v v' : ℕ → ℝ) (pos : ℕ → ℝ) (f full θ d : ℝ), (∀ j, 1 ≤ j → j ≤ P.n - 1 → v j = v' j) →
      IsHorizon v f pos full (P.n - 1) θ d → IsHorizon v' f pos full (P.n - 1) θ d := by
    intro v v' pos f full θ d e h
    refine ⟨h.far_le, fun j j1 j2 => by rw [← e j j1 j2]; exact h.view_le j j1 j2, ?_⟩
    rcases h.attained with h' | ⟨j, j1, j2, j3, j4, j5, j6⟩
    · exact .inl h'
    · refine .inr ⟨j, j1, j2, ?_, ?_, j5, fun i i1 i2 => ?_⟩
      · rwa [← e j j1 j2]
      · rwa [← e j j1 j2]
      · rw [← e j j1 j2, ← e i i1 (by omega)]; exact j6 i i1 i2
  have z0 := hz 0 (by omega)
  have zn := hz P.n le_rfl
  have ecl : P'.Clear ↔ P.Clear := by
    unfold Path.Clear
    rw [en, ex, eκ, e0, e1, z0, zn]
    refine forall_congr' fun j => forall_congr' fun _ => forall_congr' fun hj => ?_
    rw [hz j (by omega)]
  refine ⟨θ₀, θ₁, d₀, d₁, x, y, ⟨?_, ?_⟩, by rw [e0]; exact hx', by rw [e1, elen]; exact hy, ⟨fun h => ?_, fun h => ?_⟩, fun h => ?_, fun h => ?_⟩
  · have := H.1
    rw [elen, en, ex, eκ, e0, e1, ← z0, ← zn]
    exact hor _ _ _ _ _ _ _ (fun j _ h2 => by rw [hz j (by omega)]) this
  · have := H.2
    rw [elen, en, ex, eκ, e0, e1, ← z0, ← zn]
    exact hor _ _ _ _ _ _ _ (fun j _ h2 => by rw [hz j (by omega)]) this
  · rw [ex] at h ⊢
    exact irregularity_congr hz (by positivity) (by gcongr) yn (i1 h)
  · rw [ex] at h
    exact i2 h
  · obtain ⟨c, s, hf, hg⟩ := hc (ecl.1 h)
    refine ⟨c, s, fit_congr en ex hz hx w1.le w2.le w3.le hf, ?_⟩
    have er : ∀ h0 h1, P'.raise G.dh h0 h1 = P.raise G.dh h0 h1 := by intro h0 h1; unfold Path.raise; rw [eκ, elen]
    dsimp only
    rw [e0, e1, eκ, en, er, ← z0]
    exact hg
  · obtain ⟨⟨c, s, hf, hg⟩, ⟨c', s', hf', hg'⟩, hr⟩ := ho (fun h' => h (ecl.2 h'))
    refine ⟨⟨c, s, fit_congr en ex hz hx w1.le w4.le w5 hf, ?_⟩, ⟨c', s', ?_, ?_⟩, hr⟩
    · rw [e0, ← z0]; exact hg
    · rw [elen]; exact fit_congr en ex hz hx w6 w7.le w3.le hf'
    · rw [e1, en, ← zn]; exact hg'

/-! ### Reversal of the parameters -/

theorem fit_rev {P : Path} {x y c s : ℝ} (hx : 0 < P.ξ) (h0 : 0 ≤ x) (hxy : x ≤ y) (hy : y ≤ P.len) (h : P.FitOver x y c s) :
    P.rev.FitOver (P.len - y) (P.len - x) (c + s * P.n) (-s) := by
  unfold Path.FitOver at *
  have a' : 0 ≤ ⌊x / P.ξ⌋ := Int.floor_nonneg.2 (by positivity)
  have b : ⌈y / P.ξ⌉ ≤ P.n := by
    rw [Int.ceil_le, div_le_iff₀ hx]
    exact_mod_cast hy
  have ab : ⌊x / P.ξ⌋ ≤ ⌈y / P.ξ⌉ := by
    have a := Int.floor_le (x / P.ξ)
    have b := Int.le_ceil (y / P.ξ)
    have c : x / P.ξ ≤ y / P.ξ := by gcongr
    have : ((⌊x / P.ξ⌋ : ℤ) : ℝ) ≤ ((⌈y / P.ξ⌉ : ℤ) : ℝ) := by linarith
    exact_mod_cast this
  have e1 : ⌊(P.len - y) / P.rev.ξ⌋ = P.n - ⌈y / P.ξ⌉ := by
    show ⌊(P.len - y) / P.ξ⌋ = _
    rw [sub_div, Path.len, mul_div_cancel_right₀ _ hx.ne', sub_eq_add_neg, Int.floor_natCast_add, Int.floor_neg]; ring
  have e2 : ⌈(P.len - x) / P.rev.ξ⌉ = P.n - ⌊x / P.ξ⌋ := by
    show ⌈(P.len - x) / P.ξ⌉ = _
    rw [sub_div, Path.len, mul_div_cancel_right₀ _ hx.ne', sub_eq_add_neg, Int.ceil_natCast_add, Int.ceil_neg]; ring
  rw [e1, e2]
  have := best_rev (z := P.z) (n := P.n) (a := (P.n - ⌈y / P.ξ⌉).toNat) (m := (⌈y / P.ξ⌉ - ⌊x / P.ξ⌋).toNat) (by omega) (c := c) (s := s) (by
    convert h using 1
    omega)
  rw [show (P.n : ℤ) - ⌊x / P.ξ⌋ - (P.n - ⌈y / P.ξ⌉) = ⌈y / P.ξ⌉ - ⌊x / P.ξ⌋ by ring]
  exact this

theorem clear_rev {P : Path} (h : P.Clear) : P.rev.Clear := by
  intro j j1 j2
  have j2' : j < P.n := j2
  have := h (P.n - j) (by omega) (by omega)
  rw [Nat.cast_sub j2'.le] at this
  show P.z (P.n - j) + P.κ / 2 * (j * P.ξ) * ((P.n - j) * P.ξ) ≤ (1 - j / P.n) * (P.z (P.n - 0) + P.hg₁) + j / P.n * (P.z (P.n - P.n) + P.hg₀)
  rw [Nat.sub_zero, Nat.sub_self]
  have hn : (P.n : ℝ) ≠ 0 := by
    have : P.n ≠ 0 := by omega
    exact_mod_cast this
  rw [sub_div, div_self hn] at this
  linarith

theorem horizons_rev {P : Path} (hn : 1 ≤ P.n) (hs : P.SharpHorizons) {θ₀ θ₁ d₀ d₁ : ℝ} (H : P.Horizons θ₀ θ₁ d₀ d₁) : P.rev.Horizons θ₁ θ₀ d₁ d₀ := by
  obtain ⟨H1, H2⟩ := H
  obtain ⟨s1, s2⟩ := hs
  have hor : ∀ (v v' pos pos' : ℕ → ℝ) (f full θ d : ℝ), (∀ j, 1 ≤ j → j ≤ P.n - 1 → v j = v' j) → (∀ j, 1 ≤ j → j ≤ P.n - 1 → pos j = pos' j) →
      IsHorizon v f pos full (P.n - 1) θ d → IsHorizon v' f pos' full (P.n - 1) θ d := by
    intro v v' pos pos' f full θ d e e' h
    refine ⟨h.far_le, fun j j1 j2 => by rw [← e j j1 j2]; exact h.view_le j j1 j2, ?_⟩
    rcases h.attained with h' | ⟨j, j1, j2, j3, j4, j5, j6⟩
    · exact .inl h'
    · refine .inr ⟨j, j1, j2, ?_, ?_, ?_, fun i i1 i2 => ?_⟩
      · rwa [← e j j1 j2]
      · rwa [← e j j1 j2]
      · rwa [← e' j j1 j2]
      · rw [← e j j1 j2, ← e i i1 (by omega)]; exact j6 i i1 i2
  have el : P.rev.len = P.len := rfl
  constructor
  · have := isHorizon_rev s2 H2
    show IsHorizon (fun j => elevation P.κ (P.z (P.n - 0) + P.hg₁) (j * P.ξ) (P.z (P.n - j)))
      (elevation P.κ (P.z (P.n - 0) + P.hg₁) P.rev.len (P.z (P.n - P.n) + P.hg₀)) (fun j => j * P.ξ) P.rev.len (P.n - 1) θ₁ d₁
    rw [el, Nat.sub_zero, Nat.sub_self]
    refine hor _ _ _ _ _ _ _ _ (fun j j1 j2 => ?_) (fun j j1 j2 => ?_) this
    all_goals
      rw [Nat.cast_sub (by omega), sub_sub_cancel]
  · have := isHorizon_rev s1 H1
    show IsHorizon (fun j => elevation P.κ (P.z (P.n - P.n) + P.hg₀) ((P.n - j) * P.ξ) (P.z (P.n - j)))
      (elevation P.κ (P.z (P.n - P.n) + P.hg₀) P.rev.len (P.z (P.n - 0) + P.hg₁)) (fun j => (P.n - j) * P.ξ) P.rev.len (P.n - 1) θ₀ d₀
    rw [el, Nat.sub_zero, Nat.sub_self]
    refine hor _ _ _ _ _ _ _ _ (fun j j1 j2 => ?_) (fun j j1 j2 => ?_) this
    all_goals
      rw [Nat.cast_sub (by omega)]

/-- On clear paths the horizons are the terminals themselves. -/
theorem clear_view {P : Path} (hx : 0 < P.ξ) (h : P.Clear) {j : ℕ} (j1 : 1 ≤ j) (j2 : j ≤ P.n - 1) :
    elevation P.κ (P.z 0 + P.hg₀) (j * P.ξ) (P.z j) ≤ elevation P.κ (P.z 0 + P.hg₀) P.len (P.z P.n + P.hg₁) ∧
    elevation P.κ (P.z P.n + P.hg₁) ((P.n - j) * P.ξ) (P.z j) ≤ elevation P.κ (P.z P.n + P.hg₁) P.len (P.z 0 + P.hg₀) := by
  have := h j j1 (by omega)
  unfold elevation Path.len
  have hj : (0 : ℝ) < j := by exact_mod_cast j1
  have hjn : (j : ℝ) + 1 ≤ P.n := by exact_mod_cast (by omega : j + 1 ≤ P.n)
  obtain ⟨m, hm⟩ : ∃ m, m = (P.n : ℝ) - j := ⟨_, rfl⟩
  have hn : (P.n : ℝ) = m + j := by linarith
  have hm0 : 0 < m := by linarith
  rw [hn] at this ⊢
  rw [show m + j - j = m by ring] at *
  have e : (1 - j / (m + j)) * (P.z 0 + P.hg₀) + j / (m + j) * (P.z P.n + P.hg₁) = (m * (P.z 0 + P.hg₀) + j * (P.z P.n + P.hg₁)) / (m + j) := by
    field_simp; ring
  rw [e, le_div_iff₀ (by linarith)] at this
  constructor
  · rw [div_sub' (by positivity), div_sub' (by positivity), div_le_div_iff₀ (by positivity) (by positivity)]
    have := mul_le_mul_of_nonneg_left this (by positivity : 0 ≤ P.ξ)
    nlinarith
  · rw [div_sub' (by positivity), div_sub' (by positivity), div_le_div_iff₀ (by positivity) (by positivity)]
    have := mul_le_mul_of_nonneg_left this (by positivity : 0 ≤ P.ξ)
    nlinarith

theorem clear_horizons {P : Path} (hx : 0 < P.ξ) (h : P.Clear) {θ₀ θ₁ d₀ d₁ : ℝ} :
    P.Horizons θ₀ θ₁ d₀ d₁ ↔ θ₀ = elevation P.κ (P.z 0 + P.hg₀) P.len (P.z P.n + P.hg₁) ∧
      θ₁ = elevation P.κ (P.z P.n + P.hg₁) P.len (P.z 0 + P.hg₀) ∧ d₀ = P.len ∧ d₁ = P.len := by
  constructor
  · rintro ⟨H0, H1⟩
    rcases H0.attained with ⟨a, b⟩ | ⟨j, j1, j2, j3, -⟩
    · rcases H1.attained with ⟨a', b'⟩ | ⟨j, j1, j2, j3, -⟩
      · exact ⟨a, a', b, b'⟩
      · exact absurd (clear_view hx h j1 j2).2 (not_le.2 j3)
    · exact absurd (clear_view hx h j1 j2).1 (not_le.2 j3)
  · rintro ⟨rfl, rfl, rfl, rfl⟩
    exact ⟨⟨le_rfl, fun j j1 j2 => (clear_view hx h j1 j2).1, .inl ⟨rfl, rfl⟩⟩, ⟨le_rfl, fun j j1 j2 => (clear_view hx h j1 j2).2, .inl ⟨rfl, rfl⟩⟩⟩

theorem rev_rev_z (P : Path) {j : ℕ} (h : j ≤ P.n) : P.rev.rev.z j = P.z j := by
  show P.z (P.n - (P.n - j)) = _
  rw [Nat.sub_sub_self h]

/-- The parameters of the reversed path are those of the path, exchanged. -/
theorem isGeometry_rev {P : Path} {zr : ℝ} {G : Geometry} (hn : 1 ≤ P.n) (hx : 0 < P.ξ) (hg0 : 0 < P.hg₀) (hg1 : 0 < P.hg₁)
    (hcase : P.Clear ∨ P.SharpHorizons) (hzr : P.Clear → zr = P.z P.n) (h : P.IsGeometry zr G) : P.rev.IsGeometry (P.z 0) G.swap := by
  obtain ⟨θ₀, θ₁, d₀, d₁, x, y, H, hx', hy, ⟨i1, i2⟩, hc, ho⟩ := h
  obtain ⟨w1, w2, w3, w4, w5, w6, w7⟩ := window_bounds hn hx hg0 hg1 H hx' hy
  have el : P.rev.len = P.len := rfl
  have yn : y / P.ξ ≤ P.n := by rw [div_le_iff₀ hx]; exact w3.le
  have H' : P.rev.Horizons θ₁ θ₀ d₁ d₀ := by
    by_cases hcl : P.Clear
    · rw [clear_horizons hx hcl] at H
      obtain ⟨a, b, c, d⟩ := H
      rw [clear_horizons (P := P.rev) hx (clear_rev hcl), el]
      refine ⟨?_, ?_, d, c⟩
      · show _ = elevation P.κ (P.z (P.n - 0) + P.hg₁) P.len (P.z (P.n - P.n) + P.hg₀)
        rw [Nat.sub_zero, Nat.sub_self, b]
      · show _ = elevation P.κ (P.z (P.n - P.n) + P.hg₀) P.len (P.z (P.n - 0) + P.hg₁)
        rw [Nat.sub_zero, Nat.sub_self, a]
    · exact horizons_rev hn (hcase.resolve_left hcl) H
  have ecl : P.rev.Clear → P.Clear := by
    intro h
    have h2 := clear_rev h
    intro j j1 j2
    have := h2 j j1 j2
    rw [rev_rev_z P j2.le, rev_rev_z P (Nat.zero_le _)] at this
    have e : P.rev.rev.z P.rev.rev.n = P.z P.n := rev_rev_z P le_rfl
    rw [e] at this
    exact this
  have ew : (P.len - x) / P.ξ - (P.len - y) / P.ξ = y / P.ξ - x / P.ξ := by ring
  have wy : P.len - y = min (15 * P.hg₁) (0.1 * d₁) := by rw [hy]; ring
  have wx : P.len - x = P.len - min (15 * P.hg₀) (0.1 * d₀) := by rw [hx']
  have ny : (P.len - y) / P.ξ = P.n - y / P.ξ := by rw [sub_div, Path.len, mul_div_cancel_right₀ _ hx.ne']
  have nx : (P.len - x) / P.ξ = P.n - x / P.ξ := by rw [sub_div, Path.len, mul_div_cancel_right₀ _ hx.ne']
  have xx : x / P.ξ ≤ y / P.ξ := by gcongr
  have x0 : 0 ≤ x / P.ξ := by positivity
  refine ⟨θ₁, θ₀, d₁, d₀, P.len - y, P.len - x, H', wy, wx, ⟨fun h => ?_, fun h => ?_⟩, fun h => ?_, fun h => ?_⟩
  · have h' : 2 ≤ (P.len - x) / P.ξ - (P.len - y) / P.ξ := h
    rw [ew] at h'
    show IsIrregularity (fun j => P.z (P.n - j)) ((P.len - y) / P.ξ) ((P.len - x) / P.ξ) _ G.dh
    rw [ny, nx]
    refine irregularity_rev (by linarith) (by linarith) (by linarith) ?_
    rw [sub_sub_cancel, sub_sub_cancel, show P.len - x - (P.len - y) = y - x by ring]
    exact i1 h'
  · have h' : (P.len - x) / P.ξ - (P.len - y) / P.ξ < 2 := h
    rw [ew] at h'
    exact i2 h'
  · have hcl := ecl h
    obtain ⟨c, s, hf, hg⟩ := hc hcl
    refine ⟨c + s * P.n, -s, fit_rev hx w1.le w2.le w3.le hf, ?_⟩
    have er : ∀ h0 h1, P.rev.raise G.dh h1 h0 = P.raise G.dh h0 h1 := by
      intro h0 h1; unfold Path.raise; rw [el, show P.rev.κ = P.κ from rfl, add_comm]
    have a0 : P.rev.hg₀ + max (P.rev.z 0 - (c + s * P.n)) 0 = P.hg₁ + max (zr - (c + s * P.n)) 0 := by
      rw [hzr hcl]; rfl
    have a1 : P.rev.hg₁ + max (P.z 0 - (c + s * P.n + -s * P.rev.n)) 0 = P.hg₀ + max (P.z 0 - c) 0 := by
      show P.hg₀ + max (P.z 0 - (c + s * P.n + -s * P.n)) 0 = _
      rw [show c + s * P.n + -s * P.n = c by ring]
    dsimp only at hg ⊢
    rw [a0, a1]
    have er' : P.rev.raise G.swap.dh (P.hg₁ + max (zr - (c + s * P.n)) 0) (P.hg₀ + max (P.z 0 - c) 0) = _ := er _ _
    rw [er']
    obtain ⟨g1, g2, g3, g4, g5, g6⟩ := hg
    exact ⟨g2, g1, g4, g3, g6, g5⟩
  · have hcl : ¬ P.Clear := fun hc => h (clear_rev hc)
    obtain ⟨⟨c, s, hf, hg⟩, ⟨c', s', hf', hg'⟩, r1, r2, r3, r4⟩ := ho hcl
    refine ⟨⟨c' + s' * P.n, -s', ?_, ?_⟩, ⟨c + s * P.n, -s, ?_, ?_⟩, r2, r1, r4, r3⟩
    · have := fit_rev hx w6 w7.le w3.le hf'
      rwa [sub_sub_cancel] at this
    · exact hg'
    · exact fit_rev hx w1.le w4.le w5 hf
    · show G.he₀ = P.hg₀ + max (P.z (P.n - P.n) - (c + s * P.n + -s * P.n)) 0
      rw [Nat.sub_self, show c + s * P.n + -s * P.n = c by ring]
      exact hg

end Itm
