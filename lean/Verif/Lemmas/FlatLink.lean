import Verif.Lemmas.SmoothLink
import Verif.Lemmas.LogBounds

/-! The area program over flat ground (20 MHz, antennas of 3.3 and 1.3 m): the diffraction line and the scatter the code draws. -/

namespace Itm.Spec
open Itm

/-- One branch or the other of the height gain below 200. -/
theorem gain_le {x k c : ℝ} (hx : x < 200) (h0 : -117 ≤ c) (h1 : 1 < x → 17.372 * Real.log x - 117 ≤ c)
    (h2 : 2.5e-5 * x ^ 2 / k + 8.686 * Real.log k - 15 ≤ c) : heightGain x k ≤ c := by
  unfold heightGain nearGain
  rw [if_neg (by linarith), if_neg (by linarith)]
  split_ifs with a b
  · exact h1 b
  · exact h0
  · exact h2

/-- Table entries grow with the efficiency. -/
theorem gainRow_nonneg_mono {a b a' b' : ℚ} {r : ℝ} (hr : 0 < r) (ha0 : 0 ≤ a) (hb0 : 0 ≤ b) (ha : a ≤ a') (hb : b ≤ b') :
    gainRow (a, b) r ≤ gainRow (a', b') r := by
  unfold gainRow
  have h0 : (0:ℝ) ≤ a := by exact_mod_cast ha0
  have h1 : (0:ℝ) ≤ b := by exact_mod_cast hb0
  have h2 : (a:ℝ) ≤ a' := by exact_mod_cast ha
  have h3 : (b:ℝ) ≤ b' := by exact_mod_cast hb
  refine mul_le_mul_of_nonneg_left (Real.log_le_log (by positivity) ?_) (by norm_num)
  dsimp only
  gcongr

/-- The table at efficiencies up to 3, between the first and the third row. -/
theorem table_between {r e : ℝ} (hr : 0 < r) (he : e ≤ 3) : gainRow (25, 24) r ≤ scatterTable r e ∧ scatterTable r e ≤ gainRow (177, 68) r := by
  have m1 : gainRow (25, 24) r ≤ gainRow (80, 45) r := gainRow_nonneg_mono hr (by norm_num) (by norm_num) (by norm_num) (by norm_num)
  have m2 : gainRow (80, 45) r ≤ gainRow (177, 68) r := gainRow_nonneg_mono hr (by norm_num) (by norm_num) (by norm_num) (by norm_num)
  unfold scatterTable
  dsimp only
  obtain ⟨x, ex⟩ : ∃ x, x = min (max e 1) 5 := ⟨_, rfl⟩
  have x1 : 1 ≤ x := by rw [ex]; exact le_min (le_max_right _ _) (by norm_num)
  have x3 : x ≤ 3 := by rw [ex]; exact (min_le_left _ _).trans (max_le he (by norm_num))
  rw [← ex]
  clear ex
  have cases3 : ⌊x⌋ = 1 ∨ ⌊x⌋ = 2 ∨ ⌊x⌋ = 3 := by
    have l1 : (1:ℤ) ≤ ⌊x⌋ := Int.le_floor.2 (by exact_mod_cast x1)
    have l2 : ⌊x⌋ ≤ 3 := by
      have := Int.floor_le x
      have : (⌊x⌋ : ℝ) ≤ 3 := this.trans x3
      exact_mod_cast this
    omega
  have f1 := Int.floor_le x
  have f2 := Int.lt_floor_add_one x
  rcases cases3 with c | c | c <;> rw [c] at f1 f2 ⊢ <;> push_cast at f1 f2
  · show _ ≤ (1 - (x - ((1:ℕ):ℝ))) * gainRow (25, 24) r + (x - ((1:ℕ):ℝ)) * gainRow (80, 45) r ∧
      (1 - (x - ((1:ℕ):ℝ))) * gainRow (25, 24) r + (x - ((1:ℕ):ℝ)) * gainRow (80, 45) r ≤ _
    push_cast
    constructor <;> nlinarith
  · show _ ≤ (1 - (x - ((2:ℕ):ℝ))) * gainRow (80, 45) r + (x - ((2:ℕ):ℝ)) * gainRow (177, 68) r ∧
      (1 - (x - ((2:ℕ):ℝ))) * gainRow (80, 45) r + (x - ((2:ℕ):ℝ)) * gainRow (177, 68) r ≤ _
    push_cast
    constructor <;> nlinarith
  · have e3 : x = 3 := le_antisymm x3 f1
    show _ ≤ (1 - (x - ((3:ℕ):ℝ))) * gainRow (177, 68) r + (x - ((3:ℕ):ℝ)) * gainRow (395, 80) r ∧
      (1 - (x - ((3:ℕ):ℝ))) * gainRow (177, 68) r + (x - ((3:ℕ):ℝ)) * gainRow (395, 80) r ≤ _
    rw [e3]
    push_cast
    constructor <;> nlinarith

/-- The frequency gain between its parts, the asymmetry term being below 0.05. -/
theorem gain_between {L : Link} {d lo hi : ℝ} (he : L.eta d ≤ 3) (r0 : 0 < L.scatterR L.he₀ d) (r1 : 0 < L.scatterR L.he₁ d)
    (hs : 0.97 ≤ (d - L.ad) / (d + L.ad)) (hs1 : (d - L.ad) / (d + L.ad) ≤ 1) (he0 : 0 ≤ L.eta d)
    (h1 : lo + 0.05 ≤ (gainRow (25, 24) (L.scatterR L.he₀ d) + gainRow (25, 24) (L.scatterR L.he₁ d)) / 2)
    (h2 : (gainRow (177, 68) (L.scatterR L.he₀ d) + gainRow (177, 68) (L.scatterR L.he₁ d)) / 2 ≤ hi - 0.05) (h0 : 0 ≤ lo)
    (h3 : lo ≤ 4.343 * Real.log (((1 + 1.4142 / L.scatterR L.he₀ d) * (1 + 1.4142 / L.scatterR L.he₁ d)) ^ 2 *
      (L.scatterR L.he₀ d + L.scatterR L.he₁ d) / (L.scatterR L.he₀ d + L.scatterR L.he₁ d + 2.8284)))
    (h4 : 4.343 * Real.log (((1 + 1.4142 / L.scatterR L.he₀ d) * (1 + 1.4142 / L.scatterR L.he₁ d)) ^ 2 *
      (L.scatterR L.he₀ d + L.scatterR L.he₁ d) / (L.scatterR L.he₀ d + L.scatterR L.he₁ d + 2.8284)) ≤ hi) :
    lo ≤ L.scatterGain d ∧ L.scatterGain d ≤ hi := by
  unfold Link.scatterGain
  dsimp only
  generalize L.scatterR L.he₀ d = a at *
  generalize L.scatterR L.he₁ d = b at *
  generalize 4.343 * Real.log (((1 + 1.4142 / a) * (1 + 1.4142 / b)) ^ 2 * (a + b) / (a + b + 2.8284)) = alt at *
  have hm3 : max (L.eta d) 1 ≤ 3 := max_le he (by norm_num)
  obtain ⟨ta, ta'⟩ := table_between r0 hm3
  obtain ⟨tb, tb'⟩ := table_between r1 hm3
  have le0 : 0 ≤ Real.log (max (L.eta d) 1) := Real.log_nonneg (le_max_right _ _)
  have le1 : Real.log (max (L.eta d) 1) ≤ 1.2 := by
    refine (Real.log_le_log (by positivity) hm3).trans ?_
    have := log_upper (y := 3) 5 8 (by norm_num) (by norm_num) (by norm_num)
    norm_num at this ⊢; linarith
  generalize scatterTable a (max (L.eta d) 1) = T at *
  generalize scatterTable b (max (L.eta d) 1) = U at *
  generalize Real.log (max (L.eta d) 1) = le at *
  generalize (d - L.ad) / (d + L.ad) = s at *
  have ls : -0.031 ≤ Real.log (max 0.1 s) ∧ Real.log (max 0.1 s) ≤ 0 := by
    rw [max_eq_right (by norm_num at *; linarith)]
    have hs0 : 0 < s := by norm_num at *; linarith
    refine ⟨?_, Real.log_nonpos hs0.le hs1⟩
    have h1 := Real.log_le_sub_one_of_pos (x := 1 / s) (by positivity)
    rw [Real.log_div one_ne_zero hs0.ne', Real.log_one] at h1
    have : 1 / s ≤ 1.031 := by rw [div_le_iff₀ hs0]; norm_num at *; linarith
    norm_num at *; linarith
  have lq : -2.311 ≤ Real.log (min (max 0.1 (L.rr / s)) 10) ∧ Real.log (min (max 0.1 (L.rr / s)) 10) ≤ 2.311 := by
    have l10 := log_upper (y := 10) 3 10 (by norm_num) (by norm_num) (by norm_num)
    have a1 : 0.1 ≤ min (max 0.1 (L.rr / s)) 10 := le_min (le_max_left _ _) (by norm_num)
    have a2 : min (max 0.1 (L.rr / s)) 10 ≤ 10 := min_le_right _ _
    generalize min (max 0.1 (L.rr / s)) 10 = m at *
    have m0 : 0 < m := lt_of_lt_of_le (by norm_num) a1
    constructor
    · have := Real.log_le_log (by norm_num) a1
      rw [show (0.1 : ℝ) = 10⁻¹ by norm_num, Real.log_inv] at this
      norm_num at *; linarith
    · have := Real.log_le_log m0 a2
      norm_num at *; linarith
  generalize Real.log (max 0.1 s) = p at *
  generalize Real.log (min (max 0.1 (L.rr / s)) 10) = q at *
  have has : -0.05 ≤ 0.49 * (1.38 - le) * p * q ∧ 0.49 * (1.38 - le) * p * q ≤ 0.05 := by
    have hab : |0.49 * (1.38 - le) * p * q| ≤ 0.49 * 1.38 * 0.031 * 2.311 := by
      rw [abs_mul, abs_mul, abs_mul]
      have a1 : |(0.49:ℝ)| ≤ 0.49 := by rw [abs_of_pos] <;> norm_num
      have a2 : |1.38 - le| ≤ 1.38 := by rw [abs_le]; constructor <;> norm_num at * <;> linarith
      have a3 : |p| ≤ 0.031 := by rw [abs_le]; constructor <;> norm_num at * <;> linarith
      have a4 : |q| ≤ 2.311 := by rw [abs_le]; constructor <;> norm_num at * <;> linarith
      gcongr
    have := abs_le.1 hab
    constructor <;> norm_num at * <;> linarith
  generalize 0.49 * (1.38 - le) * p * q = as at *
  have hh : lo ≤ max ((T + U) / 2 + min ((T + U) / 2) as) 0 ∧ max ((T + U) / 2 + min ((T + U) / 2) as) 0 ≤ hi := by
    have m1 : -0.05 ≤ min ((T + U) / 2) as := le_min (by norm_num at *; linarith) has.1
    have m2 : min ((T + U) / 2) as ≤ 0.05 := (min_le_right _ _).trans has.2
    generalize min ((T + U) / 2) as = m at *
    refine ⟨le_trans ?_ (le_max_left _ _), max_le ?_ ?_⟩ <;> norm_num at * <;> linarith
  generalize max ((T + U) / 2 + min ((T + U) / 2) as) 0 = H at *
  split_ifs with hc
  · constructor <;> nlinarith
  · exact hh

/-- 20 MHz over flat ground, antennas of 3.3 and 1.3 m. -/
structure Flat20 (L : Link) : Prop where
  S : SmoothLink L
  wn : L.wn = 20 / 47.7
  g1 : 1.17e-7 ≤ L.gme
  g2 : L.gme ≤ 1.185e-7
  a1 : 3.3 ≤ L.he₀
  a2 : L.he₀ ≤ 3.3001
  b1 : 1.3 ≤ L.he₁
  b2 : L.he₁ ≤ 1.3001
  z1 : 3.7 ≤ ‖L.z‖
  z2 : ‖L.z‖ ≤ 3.75
  ens : L.ens = 301

namespace Flat20
variable {L : Link} (h : Flat20 L)
include h
open SmoothLink

theorem K_bounds : 152.3 ≤ K L ∧ K L ≤ 153.1 := by
  have h0 := h.S.K_pos
  have hc := h.S.K_cube
  have hg := h.S.g
  have g1 := h.g1; have g2 := h.g2
  rw [h.wn] at hc
  constructor
  · by_contra c
    push Not at c
    have : K L ^ 3 < 152.3 ^ 3 := pow_lt_pow_left₀ c h0.le (by norm_num)
    rw [hc, div_lt_iff₀ hg] at this
    norm_num at *; linarith
  · by_contra c
    push Not at c
    have : 153.1 ^ 3 < K L ^ 3 := pow_lt_pow_left₀ c (by norm_num) (by norm_num)
    rw [hc, lt_div_iff₀ hg] at this
    norm_num at *; linarith

theorem Kg_bounds : 1.79e-5 ≤ K L * L.gme ∧ K L * L.gme ≤ 1.806e-5 := by
  have h0 := h.S.Kg_pos
  have hc := h.S.Kg_cube
  rw [h.wn] at hc
  have s1 : (1.17e-7 : ℝ) ^ 2 ≤ L.gme ^ 2 := pow_le_pow_left₀ (by norm_num) h.g1 2
  have s2 : L.gme ^ 2 ≤ (1.185e-7 : ℝ) ^ 2 := pow_le_pow_left₀ h.S.g.le h.g2 2
  constructor
  · by_contra c
    push Not at c
    have : (K L * L.gme) ^ 3 < 1.79e-5 ^ 3 := pow_lt_pow_left₀ c h0.le (by norm_num)
    rw [hc] at this
    generalize L.gme ^ 2 = y at *
    norm_num at *; linarith
  · by_contra c
    push Not at c
    have : 1.806e-5 ^ 3 < (K L * L.gme) ^ 3 := pow_lt_pow_left₀ c (by norm_num) (by norm_num)
    rw [hc] at this
    generalize L.gme ^ 2 = y at *
    norm_num at *; linarith

theorem k_bounds : 0.00174 ≤ L.zInv / K L ∧ L.zInv / K L ≤ 0.001776 := by
  obtain ⟨k1, k2⟩ := h.K_bounds
  have z1 := h.z1; have z2 := h.z2
  have hz := h.S.z; have hk := h.S.K_pos
  unfold Link.zInv
  rw [div_div]
  constructor
  · rw [le_div_iff₀ (by positivity)]
    have : ‖L.z‖ * K L ≤ 3.75 * 153.1 := mul_le_mul z2 k2 hk.le (by norm_num)
    generalize ‖L.z‖ * K L = y at *
    norm_num at *; linarith
  · rw [div_le_iff₀ (by positivity)]
    have : 3.7 * 152.3 ≤ ‖L.z‖ * K L := mul_le_mul z1 k1 (by norm_num) hz.le
    generalize ‖L.z‖ * K L = y at *
    norm_num at *; linarith

theorem b_bounds : 242.3 ≤ b L ∧ b L ≤ 242.5 := by
  have := h.k_bounds
  unfold b
  constructor <;> norm_num at * <;> linarith

theorem dl_bounds : (7460 ≤ L.dl₀ ∧ L.dl₀ ≤ 7520) ∧ (4680 ≤ L.dl₁ ∧ L.dl₁ ≤ 4720) := by
  have hg := h.S.g
  have g1 := h.g1; have g2 := h.g2
  have a1 := h.a1; have a2 := h.a2; have b1 := h.b1; have b2 := h.b2
  rw [h.S.dl0, h.S.dl1]
  refine ⟨⟨?_, ?_⟩, ?_, ?_⟩
  · refine Real.le_sqrt_of_sq_le ?_
    rw [le_div_iff₀ hg]; norm_num at *; linarith
  · rw [Real.sqrt_le_left (by norm_num), div_le_iff₀ hg]; norm_num at *; linarith
  · refine Real.le_sqrt_of_sq_le ?_
    rw [le_div_iff₀ hg]; norm_num at *; linarith
  · rw [Real.sqrt_le_left (by norm_num), div_le_iff₀ hg]; norm_num at *; linarith

theorem gain_terms {dl M c : ℝ} (hM : 0 < M) (hM2 : M < 200) (hd : 0 < dl) (hx : 242.5 * 1.806e-5 * dl ≤ M)
    (c1 : 17.372 * Real.log M - 117 ≤ c) (c0 : -117 ≤ c) (c2 : 2.5e-5 * M ^ 2 / 0.00174 - 8.686 * 6.32 - 15 ≤ c) :
    heightGain (b L * (K L * L.gme) * dl) (L.zInv / K L) ≤ c := by
  obtain ⟨k1, k2⟩ := h.k_bounds
  have hk : 0 < L.zInv / K L := lt_of_lt_of_le (by norm_num) k1
  have hx' : b L * (K L * L.gme) * dl ≤ M := by
    refine le_trans ?_ hx
    have := h.b_bounds; have := h.Kg_bounds; have := h.S.Kg_pos
    gcongr <;> tauto
  have hb : 0 < b L := lt_of_lt_of_le (by norm_num) h.b_bounds.1
  have x0 : 0 < b L * (K L * L.gme) * dl := by have := h.S.Kg_pos; positivity
  generalize b L * (K L * L.gme) * dl = x at *
  generalize L.zInv / K L = k at *
  refine gain_le (by linarith) c0 (fun _ => ?_) ?_
  · have := Real.log_le_log x0 hx'
    generalize Real.log x = a at *
    generalize Real.log M = b at *
    norm_num at *; linarith
  · have l1 : Real.log k ≤ -6.32 := by
      have h1 : Real.log k ≤ Real.log 0.001776 := Real.log_le_log hk k2
      have h2 := log_ge_pow2 (y := 563) 9 (by norm_num)
      have h3 : Real.log (0.001776 : ℝ) ≤ -Real.log 563 := by
        rw [← Real.log_inv]; exact Real.log_le_log (by norm_num) (by norm_num)
      have l2 := log2_bounds
      norm_num at *; linarith
    have h2 : 2.5e-5 * x ^ 2 / k ≤ 2.5e-5 * M ^ 2 / 0.00174 := by gcongr
    generalize 2.5e-5 * x ^ 2 / k = y at *
    generalize 2.5e-5 * M ^ 2 / 0.00174 = y' at *
    norm_num at *; linarith

theorem aht_le : L.aht ≤ -97.5 := by
  obtain ⟨q0, k0⟩ := h.S.term_arg h.S.dl0_pos h.S.he0 h.S.sq0
  obtain ⟨q1, k1⟩ := h.S.term_arg h.S.dl1_pos h.S.he1 h.S.sq1
  obtain ⟨⟨-, u0⟩, -, u1⟩ := h.dl_bounds
  have l33 := log_upper (y := 33) 20 101 (by norm_num) (by norm_num) (by norm_num)
  have l21 := log_upper (y := 20.7) 8 35 (by norm_num) (by norm_num) (by norm_num)
  have e0 := h.gain_terms (dl := L.dl₀) (M := 33) (c := -54) (by norm_num) (by norm_num) h.S.dl0_pos (by norm_num at *; linarith)
    (by norm_num at *; linarith) (by norm_num) (by norm_num)
  have e1 := h.gain_terms (dl := L.dl₁) (M := 20.7) (c := -63.5) (by norm_num) (by norm_num) h.S.dl1_pos (by norm_num at *; linarith)
    (by norm_num at *; linarith) (by norm_num) (by norm_num)
  unfold Link.aht
  rw [q0, k0, q1, k1]
  norm_num at *; linarith

theorem dla_bounds : 12140 ≤ L.dla ∧ L.dla ≤ 12240 := by
  obtain ⟨⟨l0, u0⟩, l1, u1⟩ := h.dl_bounds
  unfold Link.dla
  constructor <;> linarith

theorem md_ge : 2.18e-4 ≤ L.md := by
  refine le_trans ?_ (h.S.md_ge (B := 242.3) (by norm_num) h.b_bounds.1)
  have := h.Kg_bounds.1
  generalize K L * L.gme = y at *
  norm_num at *; linarith

theorem xae_le : L.xae ≤ 55900 := by
  have h1 := h.S.xae_mul
  have h2 := h.Kg_bounds.1
  have h3 := h.S.xae_pos
  have : L.xae * 1.79e-5 ≤ 1 := by rw [← h1]; gcongr
  norm_num at *; linarith

theorem line_ge : 180 ≤ L.diffLine 500000 := by
  have hx := h.xae_le
  have hx0 := h.S.xae_pos
  obtain ⟨l1, l2⟩ := h.dla_bounds
  have e3 := h.S.d3
  have h3 : L.d3 ≤ 90000 := by rw [e3]; norm_num at *; linarith
  have l3 : L.dla < L.d3 := by rw [e3]; norm_num; linarith
  have hm := h.md_ge
  have hD : 91.2 ≤ L.diffraction L.d3 := by
    rw [h.S.diffraction l3]
    have ha := h.aht_le
    have hq : 334 ≤ b L * (K L * L.gme) * L.d3 := by
      rw [h.S.arg3]
      have hb := h.b_bounds.1
      have : 0 < b L * (K L * L.gme) * L.dla := by
        have := h.S.Kg_pos
        have : 0 < b L := lt_of_lt_of_le (by norm_num) hb
        have : 0 < L.dla := by linarith
        positivity
      norm_num at *; linarith
    generalize b L * (K L * L.gme) * L.d3 = q at *
    have lq := log_le_pow2 (y := q) 8 (by linarith)
    have := log2_bounds
    norm_num at *; linarith
  unfold Link.diffLine
  have : 2.18e-4 * 410000 ≤ L.md * (500000 - L.d3) := mul_le_mul hm (by linarith) (by norm_num) (le_trans (by norm_num) hm)
  norm_num at *; linarith

/-- Scatter parameters at `D` beyond the horizons. -/
theorem r_bounds {D : ℝ} (hD : 0 < D) : 0.83857 * (1.17e-7 * D) * 3.3 ≤ L.scatterR L.he₀ (L.dla + D) ∧
    L.scatterR L.he₀ (L.dla + D) ≤ 0.83858 * (1.185e-7 * D) * 3.3001 ∧ 0.83857 * (1.17e-7 * D) * 1.3 ≤ L.scatterR L.he₁ (L.dla + D) ∧
    L.scatterR L.he₁ (L.dla + D) ≤ 0.83858 * (1.185e-7 * D) * 1.3001 := by
  have g0 := h.S.g; have a0 := h.S.he0; have b0 := h.S.he1
  have g1 := h.g1; have g2 := h.g2
  have a1 := h.a1; have a2 := h.a2; have b1 := h.b1; have b2 := h.b2
  unfold Link.scatterR
  rw [h.S.angle, show L.dla + D - L.dla = D by ring, h.wn, mul_comm D]
  refine ⟨?_, ?_, ?_, ?_⟩ <;> gcongr <;> norm_num

theorem z0_bounds {D : ℝ} (hD : 200000 ≤ D) (hD4 : D ≤ 400000) : 0 < L.z0 (L.dla + D) ∧ L.z0 (L.dla + D) ≤ 5000 ∧
    0.97 ≤ (L.dla + D - L.ad) / (L.dla + D + L.ad) ∧ (L.dla + D - L.ad) / (L.dla + D + L.ad) ≤ 1 := by
  have g0 := h.S.g
  have g2 := h.g2
  obtain ⟨l1, l2⟩ := h.dla_bounds
  have had : 0 ≤ L.ad ∧ L.ad ≤ 2840 := by
    obtain ⟨⟨l0, u0⟩, l1, u1⟩ := h.dl_bounds
    unfold Link.ad
    refine ⟨abs_nonneg _, abs_le.2 ⟨by linarith, by linarith⟩⟩
  have hd : 0 < L.dla + D := by linarith
  have hm : 0 < L.dla + D - L.ad := by linarith [had.2]
  have hp : 0 < L.dla + D + L.ad := by linarith [had.1]
  unfold Link.z0
  rw [h.S.angle, show L.dla + D - L.dla = D by ring]
  refine ⟨by positivity, ?_, ?_, ?_⟩
  · rw [div_le_iff₀ (by positivity)]
    have e1 : (L.dla + D - L.ad) * (L.dla + D + L.ad) ≤ (L.dla + D) * 412240 := by nlinarith [sq_nonneg L.ad]
    have e2 : D * L.gme ≤ 0.0474 := by
      calc D * L.gme ≤ 400000 * 1.185e-7 := by gcongr
        _ = _ := by norm_num
    have e0 : 0 ≤ D * L.gme := by positivity
    calc (L.dla + D - L.ad) * (L.dla + D + L.ad) * (D * L.gme) ≤ (L.dla + D) * 412240 * 0.0474 := by gcongr
      _ ≤ 5000 * (4 * (L.dla + D)) := by norm_num; linarith
  · rw [le_div_iff₀ hp]; norm_num; linarith [had.2]
  · rw [div_le_one hp]; linarith [had.1]

theorem eta_bounds {D : ℝ} (hD : 200000 ≤ D) (hD4 : D ≤ 400000) : 0 ≤ L.eta (L.dla + D) ∧ L.eta (L.dla + D) ≤ 3 := by
  obtain ⟨z0, z1, -, -⟩ := h.z0_bounds hD hD4
  unfold Link.eta
  rw [h.ens]
  have e1 : Real.exp (-(min 1.7 (L.z0 (L.dla + D) / 8000)) ^ 6) ≤ 1 := by
    refine Real.exp_le_one_iff.2 ?_
    have : 0 ≤ (min 1.7 (L.z0 (L.dla + D) / 8000)) ^ 6 := by positivity
    linarith
  have e0 := Real.exp_pos (-(min 1.7 (L.z0 (L.dla + D) / 8000)) ^ 6)
  generalize Real.exp (-(min 1.7 (L.z0 (L.dla + D) / 8000)) ^ 6) = E at *
  generalize L.z0 (L.dla + D) = z at *
  have f1 : 0 ≤ 1 + (0.031 - 0.00232 * 301 + 5.67e-6 * 301 ^ 2) * E := by norm_num; linarith
  have f2 : 1 + (0.031 - 0.00232 * 301 + 5.67e-6 * 301 ^ 2) * E ≤ 1 := by norm_num; linarith
  refine ⟨by positivity, ?_⟩
  have f3 : z / 1755.6 * (1 + (0.031 - 0.00232 * 301 + 5.67e-6 * 301 ^ 2) * E) ≤ 5000 / 1755.6 * 1 := by gcongr
  exact f3.trans (by norm_num)

omit h in
/-- The third row of the table, from above. -/
theorem row_le {r ρ y : ℝ} (hρ : 0 < ρ) (hr : ρ ≤ r) (hy : 1 + 68 / ρ ^ 2 + 177 / ρ ^ 4 ≤ y) (n : ℕ) :
    gainRow (177, 68) r ≤ 4.343 * (n * Real.log 2 + (y / 2 ^ n - 1)) := by
  have r0 : 0 < r := lt_of_lt_of_le hρ hr
  unfold gainRow
  refine mul_le_mul_of_nonneg_left ?_ (by norm_num)
  have e : 1 + ((68:ℚ):ℝ) / r ^ 2 + ((177:ℚ):ℝ) / r ^ 4 ≤ y := by
    refine le_trans ?_ hy
    push_cast
    gcongr
  have p : 0 < 1 + ((68:ℚ):ℝ) / r ^ 2 + ((177:ℚ):ℝ) / r ^ 4 := by push_cast; positivity
  exact (Real.log_le_log p e).trans (log_le_pow2 n (lt_of_lt_of_le p e))

omit h in
/-- The first row of the table, from below. -/
theorem row_ge {r ρ y : ℝ} (h0 : 0 < r) (hr : r ≤ ρ) (hy0 : 0 < y) (hy : y * ρ ^ 4 ≤ 25) (n : ℕ) :
    4.343 * (n * Real.log 2 + (1 - 2 ^ n / y)) ≤ gainRow (25, 24) r := by
  have r0 : 0 < ρ := lt_of_lt_of_le h0 hr
  unfold gainRow
  refine mul_le_mul_of_nonneg_left ?_ (by norm_num)
  have e : y ≤ 1 + ((24:ℚ):ℝ) / r ^ 2 + ((25:ℚ):ℝ) / r ^ 4 := by
    have e1 : y ≤ 25 / r ^ 4 := by
      rw [le_div_iff₀ (by positivity)]
      refine le_trans ?_ hy
      gcongr
    have e2 : 0 ≤ 24 / r ^ 2 := by positivity
    push_cast
    linarith
  exact (log_ge_pow2 n hy0).trans (Real.log_le_log hy0 e)

omit h in
theorem alt_bounds {a b a1 a2 b1 b2 : ℝ} (ha0 : 0 < a1) (hb0 : 0 < b1) (ha : a1 ≤ a) (ha' : a ≤ a2) (hb : b1 ≤ b) (hb' : b ≤ b2) :
    Real.log (((1 + 1.4142 / a2) * (1 + 1.4142 / b2)) ^ 2 * (a1 + b1) / (a2 + b2 + 2.8284)) ≤
      Real.log (((1 + 1.4142 / a) * (1 + 1.4142 / b)) ^ 2 * (a + b) / (a + b + 2.8284)) ∧
    Real.log (((1 + 1.4142 / a) * (1 + 1.4142 / b)) ^ 2 * (a + b) / (a + b + 2.8284)) ≤
      Real.log (((1 + 1.4142 / a1) * (1 + 1.4142 / b1)) ^ 2 * (a2 + b2) / (a1 + b1 + 2.8284)) := by
  have p1 : 0 < a := by linarith
  have p2 : 0 < b := by linarith
  have p3 : 0 < a2 := by linarith
  have p4 : 0 < b2 := by linarith
  constructor <;> refine Real.log_le_log (by positivity) ?_ <;> gcongr

theorem gain6 : 0 ≤ L.scatterGain (L.dla + 400000) ∧ L.scatterGain (L.dla + 400000) ≤ 66.4 := by
  obtain ⟨p1, p2, p3, p4⟩ := h.r_bounds (D := 400000) (by norm_num)
  obtain ⟨-, -, s1, s2⟩ := h.z0_bounds (D := 400000) (by norm_num) (by norm_num)
  obtain ⟨e1, e2⟩ := h.eta_bounds (D := 400000) (by norm_num) (by norm_num)
  have l2 := log2_bounds
  have t1 := row_le (y := 633600) (by norm_num) p1 (by norm_num) 19
  have t2 := row_le (y := 26160000) (by norm_num) p3 (by norm_num) 25
  obtain ⟨u1, u2⟩ := alt_bounds (by norm_num) (by norm_num) p1 p2 p3 p4
  have r0 : 0 < L.scatterR L.he₀ (L.dla + 400000) := lt_of_lt_of_le (by norm_num) p1
  have r1 : 0 < L.scatterR L.he₁ (L.dla + 400000) := lt_of_lt_of_le (by norm_num) p3
  have v1 := row_ge (y := 70000) r0 p2 (by norm_num) (by norm_num) 16
  have v2 := row_ge (y := 70000) r1 p4 (by norm_num) (by norm_num) 16
  refine gain_between e2 r0 r1 s1 s2 e1 ?_ ?_ le_rfl ?_ ?_
  · norm_num at v1 v2 l2 ⊢; linarith
  · norm_num at t1 t2 l2 ⊢; linarith
  · refine mul_nonneg (by norm_num) (le_trans ?_ u1)
    exact Real.log_nonneg (by norm_num)
  · have := Real.log_le_log (y := 20000) (by norm_num) (show ((1 + 1.4142 / (0.83857 * (1.17e-7 * 400000) * 3.3)) * (1 + 1.4142 / (0.83857 * (1.17e-7 * 400000) * 1.3))) ^ 2 *
      (0.83858 * (1.185e-7 * 400000) * 3.3001 + 0.83858 * (1.185e-7 * 400000) * 1.3001) /
      (0.83857 * (1.17e-7 * 400000) * 3.3 + 0.83857 * (1.17e-7 * 400000) * 1.3 + 2.8284) ≤ (20000:ℝ) by norm_num)
    have w := log_le_pow2 (y := (20000:ℝ)) 14 (by norm_num)
    have v := u2.trans this
    norm_num at v w l2 ⊢; linarith

theorem gain5 : 46.4 ≤ L.scatterGain (L.dla + 200000) ∧ L.scatterGain (L.dla + 200000) ≤ 100 := by
  obtain ⟨p1, p2, p3, p4⟩ := h.r_bounds (D := 200000) (by norm_num)
  obtain ⟨-, -, s1, s2⟩ := h.z0_bounds (D := 200000) (by norm_num) (by norm_num)
  obtain ⟨e1, e2⟩ := h.eta_bounds (D := 200000) (by norm_num) (by norm_num)
  have l2 := log2_bounds
  have t1 := row_le (y := 12000000) (by norm_num) p1 (by norm_num) 23
  have t2 := row_le (y := 430000000) (by norm_num) p3 (by norm_num) 28
  obtain ⟨u1, u2⟩ := alt_bounds (by norm_num) (by norm_num) p1 p2 p3 p4
  have r0 : 0 < L.scatterR L.he₀ (L.dla + 200000) := lt_of_lt_of_le (by norm_num) p1
  have r1 : 0 < L.scatterR L.he₁ (L.dla + 200000) := lt_of_lt_of_le (by norm_num) p3
  have v1 := row_ge (y := 1340000) r0 p2 (by norm_num) (by norm_num) 20
  have v2 := row_ge (y := 1340000) r1 p4 (by norm_num) (by norm_num) 20
  refine gain_between e2 r0 r1 s1 s2 e1 ?_ ?_ (by norm_num) ?_ ?_
  · norm_num at v1 v2 l2 ⊢; linarith
  · norm_num at t1 t2 l2 ⊢; linarith
  · have := Real.log_le_log (x := 48500) (by norm_num) (show (48500:ℝ) ≤ ((1 + 1.4142 / (0.83858 * (1.185e-7 * 200000) * 3.3001)) * (1 + 1.4142 / (0.83858 * (1.185e-7 * 200000) * 1.3001))) ^ 2 *
      (0.83857 * (1.17e-7 * 200000) * 3.3 + 0.83857 * (1.17e-7 * 200000) * 1.3) /
      (0.83858 * (1.185e-7 * 200000) * 3.3001 + 0.83858 * (1.185e-7 * 200000) * 1.3001 + 2.8284) by norm_num)
    have w := log_ge_pow2 (y := (48500:ℝ)) 15 (by norm_num)
    have v := this.trans u1
    norm_num at v w l2 ⊢; linarith
  · have := Real.log_le_log (y := 100000) (by norm_num) (show ((1 + 1.4142 / (0.83857 * (1.17e-7 * 200000) * 3.3)) * (1 + 1.4142 / (0.83857 * (1.17e-7 * 200000) * 1.3))) ^ 2 *
      (0.83858 * (1.185e-7 * 200000) * 3.3001 + 0.83858 * (1.185e-7 * 200000) * 1.3001) /
      (0.83857 * (1.17e-7 * 200000) * 3.3 + 0.83857 * (1.17e-7 * 200000) * 1.3 + 2.8284) ≤ (100000:ℝ) by norm_num)
    have w := log_le_pow2 (y := (100000:ℝ)) 16 (by norm_num)
    have v := u2.trans this
    norm_num at v w l2 ⊢; linarith

/-- The distance is barred from scatter. -/
theorem barred {D : ℝ} (hD : 0 < D) (hD4 : D ≤ 400000) : ¬ L.ScatterOk (L.dla + D) := by
  obtain ⟨-, p2, -, p4⟩ := h.r_bounds hD
  rintro (c | c) <;> norm_num at * <;> linarith

theorem td_bounds : (4950 ≤ 200000 * L.gme * (L.dla + 200000) ∧ 200000 * L.gme * (L.dla + 200000) ≤ 5032) ∧
    (19280 ≤ 400000 * L.gme * (L.dla + 400000) ∧ 400000 * L.gme * (L.dla + 400000) ≤ 19541) := by
  have g0 := h.S.g
  have g1 := h.g1; have g2 := h.g2
  obtain ⟨l1, l2⟩ := h.dla_bounds
  have l0 := h.S.dla_pos
  refine ⟨⟨?_, ?_⟩, ?_, ?_⟩
  · calc (4950 : ℝ) ≤ 200000 * 1.17e-7 * (12140 + 200000) := by norm_num
      _ ≤ _ := by gcongr
  · calc _ ≤ 200000 * 1.185e-7 * (12240 + 200000) := by gcongr
      _ ≤ (5032 : ℝ) := by norm_num
  · calc (19280 : ℝ) ≤ 400000 * 1.17e-7 * (12140 + 400000) := by norm_num
      _ ≤ _ := by gcongr
  · calc _ ≤ 400000 * 1.185e-7 * (12240 + 400000) := by gcongr
      _ ≤ (19541 : ℝ) := by norm_num

theorem att {D : ℝ} (x : ℝ) : L.scatterAtt (L.dla + D) x =
    scatterCurve (D * L.gme * (L.dla + D)) + 4.343 * Real.log (20 * (D * L.gme) ^ 4) + x := by
  unfold Link.scatterAtt
  dsimp only
  rw [h.S.bend, show L.dla + D - L.dla = D by ring, h.ens, h.wn]
  norm_num

theorem a6_le : L.a6 ≤ 124.7 := by
  unfold Link.a6 Link.d6
  rw [h.att]
  have hG := h.gain6.2
  obtain ⟨-, t1, t2⟩ := h.td_bounds
  have l2 := log2_bounds
  have hc : scatterCurve (400000 * L.gme * (L.dla + 400000)) ≤ 98.1 := by
    unfold scatterCurve
    generalize 400000 * L.gme * (L.dla + 400000) = t at *
    rw [if_neg (by linarith), if_pos (by linarith)]
    have e1 := Real.log_le_log (by norm_num) t1
    have e2 := log_ge_pow2 (y := (19280:ℝ)) 14 (by norm_num)
    generalize Real.log t = a at *
    norm_num at *; linarith
  have hl : Real.log (20 * (400000 * L.gme) ^ 4) ≤ -9.18 := by
    have g0 := h.S.g
    have g2 := h.g2
    have e1 : 20 * (400000 * L.gme) ^ 4 ≤ (9904:ℝ)⁻¹ := by
      calc _ ≤ 20 * (400000 * 1.185e-7) ^ 4 := by gcongr
        _ ≤ (9904 : ℝ)⁻¹ := by norm_num
    have e2 := Real.log_le_log (by positivity) e1
    rw [Real.log_inv] at e2
    have e3 := log_ge_pow2 (y := (9904:ℝ)) 13 (by norm_num)
    norm_num at *; linarith
  generalize Real.log (20 * (400000 * L.gme) ^ 4) = a at *
  norm_num at *; linarith

theorem a5_bounds : 91.7 ≤ L.a5' ∧ L.a5' < 1000 := by
  unfold Link.a5' Link.gain5'
  rw [show L.d6 = L.dla + 400000 from rfl, if_neg (h.barred (by norm_num) le_rfl)]
  unfold Link.d5
  rw [h.att]
  obtain ⟨hG, hG'⟩ := h.gain5
  obtain ⟨⟨t1, t2⟩, -⟩ := h.td_bounds
  have l2 := log2_bounds
  have hc : 97.8 ≤ scatterCurve (200000 * L.gme * (L.dla + 200000)) ∧ scatterCurve (200000 * L.gme * (L.dla + 200000)) ≤ 140 := by
    unfold scatterCurve
    generalize 200000 * L.gme * (L.dla + 200000) = t at *
    rw [if_pos (by linarith)]
    have e1 := Real.log_le_log (by linarith) t2
    have e2 := log_le_pow2 (y := (5032:ℝ)) 12 (by norm_num)
    have e3 : 0 ≤ Real.log t := Real.log_nonneg (by linarith)
    generalize Real.log t = a at *
    constructor <;> norm_num at * <;> linarith
  have hl : -12.07 ≤ Real.log (20 * (200000 * L.gme) ^ 4) ∧ Real.log (20 * (200000 * L.gme) ^ 4) ≤ 0 := by
    have g0 := h.S.g
    have g1 := h.g1
    have g2 := h.g2
    constructor
    · have e1 : (166800:ℝ)⁻¹ ≤ 20 * (200000 * L.gme) ^ 4 := by
        calc (166800 : ℝ)⁻¹ ≤ 20 * (200000 * 1.17e-7) ^ 4 := by norm_num
          _ ≤ _ := by gcongr
      have e2 := Real.log_le_log (by positivity) e1
      rw [Real.log_inv] at e2
      have e3 := log_le_pow2 (y := (166800:ℝ)) 17 (by norm_num)
      norm_num at *; linarith
    · refine Real.log_nonpos (by positivity) ?_
      calc _ ≤ 20 * (200000 * 1.185e-7) ^ 4 := by gcongr
        _ ≤ (1 : ℝ) := by norm_num
  generalize Real.log (20 * (200000 * L.gme) ^ 4) = a at *
  constructor <;> norm_num at * <;> linarith

theorem ms_le : L.ms' ≤ 1.65e-4 := by
  unfold Link.ms'
  have h5 := h.a5_bounds.1
  have h6 := h.a6_le
  rw [show L.d6 - L.d5 = 200000 by unfold Link.d6 Link.d5; ring, div_le_iff₀ (by norm_num)]
  norm_num at *; linarith

theorem not_parallel : ¬ L.Parallel := by
  rintro ⟨-, c⟩
  have := h.md_ge
  have := h.ms_le
  norm_num at *; linarith

theorem not_clash : ¬ L.FitClash := by
  obtain ⟨b1, b2⟩ := h.b_bounds
  refine h.S.no_clash (h.S.line_pos (by norm_num at *; linarith) (by norm_num at *; linarith) (h.k_bounds.2.trans (by norm_num)))
    (lt_of_lt_of_le (by norm_num) h.md_ge)

/-- At 500 km the code is more than 20 dB below the diffraction line. -/
theorem gap : L.unbarred 500000 + 20 ≤ L.diffLine 500000 := by
  have hm := h.md_ge
  have hs := h.ms_le
  have hline := h.line_ge
  obtain ⟨l1, l2⟩ := h.dla_bounds
  have hxae := h.xae_le
  have hx0 := h.S.xae_pos
  have h5 := h.a5_bounds
  have h6 := h.a6_le
  have hms : 0 < L.md - L.ms' := by norm_num at *; linarith
  have e0 : ∀ d, L.diffLine d = L.diffLine 0 + L.md * d := by intro d; unfold Link.diffLine; ring
  -- the scatter line at 500 km
  have es : L.a5' + L.ms' * (500000 - L.d5) ≤ 139.5 := by
    have e6 : L.a6 = L.a5' + L.ms' * 200000 := by
      unfold Link.ms'
      rw [show L.d6 - L.d5 = 200000 by unfold Link.d6 Link.d5; ring]; ring
    have e7 : L.ms' * (500000 - L.d6) ≤ 1.65e-4 * 88000 := by
      have a1 : 500000 - L.d6 ≤ 88000 := by unfold Link.d6; linarith
      have a2 : 0 ≤ 500000 - L.d6 := by unfold Link.d6; linarith
      calc L.ms' * (500000 - L.d6) ≤ 1.65e-4 * (500000 - L.d6) := by gcongr
        _ ≤ _ := by gcongr
    have e8 : L.a5' + L.ms' * (500000 - L.d5) = L.a6 + L.ms' * (500000 - L.d6) := by rw [e6]; unfold Link.d5 Link.d6; ring
    rw [e8]
    norm_num at *; linarith
  have hM : max L.dlsa (L.dla + 0.3 * L.xae * Real.log (47.7 * L.wn)) ≤ 63000 := by
    rw [h.S.dlsa]
    refine max_le (by linarith) ?_
    have lg : Real.log (47.7 * L.wn) ≤ 3.01 := by
      rw [h.wn, show (47.7 * (20 / 47.7) : ℝ) = 20 by norm_num]
      have := log_upper (y := 20) 3 13 (by norm_num) (by norm_num) (by norm_num)
      norm_num at this ⊢; linarith
    have : 0.3 * L.xae * Real.log (47.7 * L.wn) ≤ 0.3 * L.xae * 3.01 := by gcongr
    norm_num at *; linarith
  obtain ⟨x, ex⟩ : ∃ x, x = (L.a5' - L.ms' * L.d5 - L.diffLine 0) / (L.md - L.ms') := ⟨_, rfl⟩
  have hx : L.diffLine x = L.a5' + L.ms' * (x - L.d5) := by
    rw [e0]
    have := (eq_div_iff hms.ne').1 ex
    linarith
  unfold Link.dx' at *
  unfold Link.unbarred Link.dx'
  rw [← ex]
  -- wherever the lines are left, from there on the slopes differ
  have hdx : max (max L.dlsa (L.dla + 0.3 * L.xae * Real.log (47.7 * L.wn))) x < 500000 := by
    refine max_lt (lt_of_le_of_lt hM (by norm_num)) ?_
    by_contra c
    push Not at c
    have : L.diffLine 500000 - (L.a5' + L.ms' * (500000 - L.d5)) = (L.md - L.ms') * (500000 - x) := by
      rw [e0] at hx ⊢; linarith
    have : (L.md - L.ms') * (500000 - x) ≤ 0 := mul_nonpos_of_nonneg_of_nonpos hms.le (by linarith)
    norm_num at *; linarith
  rw [if_pos ⟨h5.2, hdx⟩]
  rcases max_choice (max L.dlsa (L.dla + 0.3 * L.xae * Real.log (47.7 * L.wn))) x with c | c <;> rw [c]
  · generalize max L.dlsa (L.dla + 0.3 * L.xae * Real.log (47.7 * L.wn)) = M at *
    have : 5.3e-5 * 437000 ≤ (L.md - L.ms') * (500000 - M) :=
      mul_le_mul (by norm_num at *; linarith) (by linarith) (by norm_num) hms.le
    rw [e0 M, e0 500000]
    norm_num at *; linarith
  · rw [hx]
    norm_num at *; linarith

end Flat20
end Itm.Spec
