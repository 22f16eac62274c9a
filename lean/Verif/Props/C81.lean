import Mathlib.Analysis.Real.Pi.Bounds
import Mathlib.Analysis.Complex.ExponentialBounds
import Verif.Spec.Physics
import Verif.Props.C80

/-! C81: what the constants of the code mean: free space is Friis, the earth is the 4/3 earth. -/

namespace Itm.Props
open Itm Itm.Spec

/-! ### The decibel -/

theorem log_1024 : 0.02371652 ≤ Real.log 1.024 ∧ Real.log 1.024 ≤ 0.02371654 := by
  constructor
  · rw [Real.le_log_iff_exp_le (by norm_num)]
    refine (Real.exp_bound' (by norm_num) (by norm_num) (n := 5) (by norm_num)).trans ?_
    norm_num [Finset.sum_range_succ, Nat.factorial]
  · rw [Real.log_le_iff_le_exp (by norm_num)]
    refine le_trans ?_ (Real.sum_le_exp_of_nonneg (by norm_num) 5)
    norm_num [Finset.sum_range_succ, Nat.factorial]

theorem log_ten_bounds : 2.30258508 ≤ Real.log 10 ∧ Real.log 10 ≤ 2.30258511 := by
  have e : 3 * Real.log 10 + Real.log 1.024 = 10 * Real.log 2 := by
    have h1 : (3 : ℝ) * Real.log 10 = Real.log (10 ^ 3) := by rw [Real.log_pow]; norm_num
    have h2 : (10 : ℝ) * Real.log 2 = Real.log (2 ^ 10) := by rw [Real.log_pow]; norm_num
    rw [h1, h2, ← Real.log_mul (by norm_num) (by norm_num)]
    norm_num
  have h1 := Real.log_two_gt_d9
  have h2 := Real.log_two_lt_d9
  obtain ⟨h3, h4⟩ := log_1024
  constructor <;> linarith

/-- The code's decibels per neper are `20/ln 10` up to 5·10⁻⁷. -/
theorem decibel : 0 < 8.68589 - 20 / Real.log 10 ∧ 8.68589 - 20 / Real.log 10 ≤ 0.0000005 := by
  obtain ⟨h1, h2⟩ := log_ten_bounds
  have h0 : 0 < Real.log 10 := by linarith
  constructor
  · rw [sub_pos, div_lt_iff₀ h0]; nlinarith
  · rw [sub_le_iff_le_add, ← sub_le_iff_le_add', le_div_iff₀ h0]; nlinarith

/-- `4π·47.7·10⁶/(2c)`, what the code's 47.7 MHz·m makes of the wavelength. -/
theorem wave_ratio : 0.00028 ≤ -Real.log (2 * Real.pi * 47.7 / 299.792458) ∧ -Real.log (2 * Real.pi * 47.7 / 299.792458) ≤ 0.000283 := by
  have h1 := Real.pi_gt_d6
  have h2 := Real.pi_lt_d6
  have h0 : 0 < 2 * Real.pi * 47.7 / 299.792458 := by positivity
  constructor
  · have := Real.log_le_sub_one_of_pos h0
    have : 2 * Real.pi * 47.7 / 299.792458 ≤ 0.99972 := by rw [div_le_iff₀ (by norm_num)]; nlinarith
    linarith
  · have := Real.one_sub_inv_le_log_of_pos h0
    have : (2 * Real.pi * 47.7 / 299.792458)⁻¹ ≤ 1.000283 := by
      rw [inv_div, div_le_iff₀ (by positivity)]; nlinarith
    linarith

theorem freeSpace_ok {wn dist fs : ℝ} (h : freeSpace wn dist = .ok fs) : 0 < 2 * wn * dist ∧ fs = 8.68589 * Real.log (2 * wn * dist) := by
  unfold freeSpace at h
  obtain ⟨l, hl, h⟩ := bind_eq_ok.1 h
  obtain ⟨h1, e⟩ := npLog_eq_ok.1 hl
  rw [pure_ok, ok_inj] at h
  have e2 : (2.0 : ℝ) = 2 := by norm_num
  rw [e2] at h1 e
  refine ⟨h1, ?_⟩
  rw [← h, ← e]
  norm_num

/-- **C81** For every frequency from 1 Hz to 10¹⁵ Hz and every distance from a micrometre to a million kilometres, the free-space loss of the code
is Friis' formula plus a constant offset of 0.00245 dB, to half a ten-thousandth of a decibel. -/
theorem C81_friis {f d fs : ℝ} (hf : 0.000001 ≤ f) (hf' : f ≤ 1000000000) (hd : 0.000001 ≤ d) (hd' : d ≤ 1000000000)
    (h : freeSpace (f / 47.7) d = .ok fs) : |fs - (friis f d + 0.00245)| ≤ 0.00005 := by
  obtain ⟨hy, rfl⟩ := freeSpace_ok h
  set y := 2 * (f / 47.7) * d with ey
  have f0 : 0 < f := by linarith
  have d0 : 0 < d := by linarith
  have e : friis f d = 20 / Real.log 10 * (Real.log y + Real.log (2 * Real.pi * 47.7 / 299.792458)) := by
    unfold friis lightSpeed
    rw [← Real.log_mul hy.ne' (by positivity), Real.logb, ey]
    rw [mul_div_assoc', div_mul_eq_mul_div]
    congr 3
    have := f0.ne'
    field_simp
    norm_num
  obtain ⟨a1, a2⟩ := decibel
  obtain ⟨r1, r2⟩ := wave_ratio
  rw [e]
  have l1 : Real.log y ≤ 45 := by
    have : y ≤ 2 ^ 60 := by
      have : f * d ≤ 1000000000 * 1000000000 := mul_le_mul hf' hd' d0.le (by norm_num)
      rw [ey]; norm_num; nlinarith
    refine (log_upper 1 60 one_pos hy (by simpa using this)).trans (by norm_num)
  have l2 : -45 ≤ Real.log y := by
    have : 1 / y ≤ 2 ^ 60 := by
      rw [div_le_iff₀ hy]
      have : 0.000001 * 0.000001 ≤ f * d := mul_le_mul hf hd (by norm_num) f0.le
      rw [ey]; norm_num at this ⊢; nlinarith
    have := log_upper (y := 1 / y) 1 60 one_pos (by positivity) (by simpa using this)
    rw [one_div, Real.log_inv] at this
    norm_num at this
    linarith
  clear_value y
  generalize Real.log (2 * Real.pi * 47.7 / 299.792458) = r at *
  generalize 20 / Real.log 10 = a at *
  generalize Real.log y = l at *
  have k1 : |(8.68589 - a) * l| ≤ 0.0000005 * 45 := by
    rw [abs_mul, abs_of_pos a1]
    exact mul_le_mul a2 (abs_le.2 ⟨l2, l1⟩) (abs_nonneg _) (by norm_num)
  rw [abs_le] at k1 ⊢
  norm_num at *
  constructor <;> nlinarith

/-- **C81** Free-space loss is a power law: `t` times the distance, or `t` times the frequency, adds `8.68589·ln t` — 6.02 dB for a factor of two,
20 dB for a factor of ten. -/
theorem C81_scaling {f d t fs : ℝ} (ht : 0 < t) (h : freeSpace (f / 47.7) d = .ok fs) :
    freeSpace (f / 47.7) (t * d) = .ok (fs + 8.68589 * Real.log t) ∧ freeSpace (t * f / 47.7) d = .ok (fs + 8.68589 * Real.log t) ∧
    (t = 2 → |8.68589 * Real.log t - 6.0206| ≤ 0.0000005) ∧ (t = 10 → |8.68589 * Real.log t - 20| ≤ 0.000002) := by
  obtain ⟨hy, rfl⟩ := freeSpace_ok h
  have e2 : (2.0 : ℝ) = 2 := by norm_num
  have e8 : (8.685890 : ℝ) = 8.68589 := by norm_num
  have k1 : 2.0 * (f / 47.7) * (t * d) = t * (2 * (f / 47.7) * d) := by rw [e2]; ring
  have k2 : 2.0 * (t * f / 47.7) * d = t * (2 * (f / 47.7) * d) := by rw [e2]; ring
  have k3 : 8.68589 * Real.log (t * (2 * (f / 47.7) * d)) = 8.68589 * Real.log (2 * (f / 47.7) * d) + 8.68589 * Real.log t := by
    rw [Real.log_mul ht.ne' hy.ne']; ring
  refine ⟨?_, ?_, ?_, ?_⟩
  · unfold freeSpace
    rw [k1, npLog_ok (mul_pos ht hy), ok_bind, pure_ok, e8, k3]
  · unfold freeSpace
    rw [k2, npLog_ok (mul_pos ht hy), ok_bind, pure_ok, e8, k3]
  · rintro rfl
    have h1 := Real.log_two_gt_d9
    have h2 := Real.log_two_lt_d9
    rw [abs_le]; constructor <;> linarith
  · rintro rfl
    obtain ⟨h1, h2⟩ := log_ten_bounds
    rw [abs_le]; constructor <;> linarith

/-! ### The earth -/

theorem exp_area : 5.3588 ≤ Real.exp (301 / 179.3) ∧ Real.exp (301 / 179.3) ≤ 5.3590 := by
  have e : Real.exp (301 / 179.3) = Real.exp (301 / 358.6) * Real.exp (301 / 358.6) := by rw [← Real.exp_add]; norm_num
  have h1 : 2.31491 ≤ Real.exp (301 / 358.6) := by
    refine le_trans ?_ (Real.sum_le_exp_of_nonneg (by norm_num) 9)
    norm_num [Finset.sum_range_succ, Nat.factorial]
  have h2 : Real.exp (301 / 358.6) ≤ 2.31494 := by
    refine (Real.exp_bound' (by norm_num) (by norm_num) (n := 9) (by norm_num)).trans ?_
    norm_num [Finset.sum_range_succ, Nat.factorial]
  rw [e]
  constructor <;> nlinarith

theorem exp_p2p : 5.7615 ≤ Real.exp (314 / 179.3) ∧ Real.exp (314 / 179.3) ≤ 5.7625 := by
  have e : Real.exp (314 / 179.3) = Real.exp (314 / 358.6) * Real.exp (314 / 358.6) := by rw [← Real.exp_add]; norm_num
  have h1 : 2.40035 ≤ Real.exp (314 / 358.6) := by
    refine le_trans ?_ (Real.sum_le_exp_of_nonneg (by norm_num) 9)
    norm_num [Finset.sum_range_succ, Nat.factorial]
  have h2 : Real.exp (314 / 358.6) ≤ 2.40048 := by
    refine (Real.exp_bound' (by norm_num) (by norm_num) (n := 9) (by norm_num)).trans ?_
    norm_num [Finset.sum_range_succ, Nat.factorial]
  rw [e]
  constructor <;> nlinarith

/-- **C81** (area) The effective earth `area.py` computes with has 4/3 of the radius of the earth, to 3 km. -/
theorem C81_earth_area {p s : PropSt ℝ} (h : areaSetup p = .ok s) : |1 / s.gme - 4 / 3 * earthRadius| ≤ 3000 := by
  rw [areaSetup_eq] at h
  obtain ⟨z, -, h⟩ := bind_eq_ok.1 h
  rw [pure_ok, ok_inj] at h
  rw [← h]
  dsimp only
  unfold effCurvature earthRadius
  rw [rexp]
  have e : (301.0 : ℝ) / 179.3 = 301 / 179.3 := by norm_num
  rw [e]
  obtain ⟨h1, h2⟩ := exp_area
  generalize Real.exp (301 / 179.3) = x at *
  have h0 : (0:ℝ) < 157e-9 * (1.0 - 0.04665 * x) := by norm_num at *; linarith
  rw [abs_le]
  constructor
  · rw [neg_le_sub_iff_le_add, ← sub_le_iff_le_add, le_div_iff₀ h0]; norm_num at *; linarith
  · rw [sub_le_iff_le_add, div_le_iff₀ h0]; norm_num at *; linarith

/-- **C81** (point to point) The effective earth of `p2p.py` (refractivity 314, two per cent above the 4/3 earth) has a radius of 8711 km, to 5 km. -/
theorem C81_earth_p2p {p s : PropSt ℝ} {profile : List ℝ} (h : p2pSetup p profile = .ok s) : |1 / s.gme - 8711000| ≤ 5000 := by
  obtain ⟨xi, zgnd, -, rfl⟩ := p2pSetup_ok h
  dsimp only
  unfold effCurvature
  rw [rexp]
  have e : (314.0 : ℝ) / 179.3 = 314 / 179.3 := by norm_num
  rw [e]
  obtain ⟨h1, h2⟩ := exp_p2p
  generalize Real.exp (314 / 179.3) = x at *
  have h0 : (0:ℝ) < 157e-9 * (1.0 - 0.04665 * x) := by norm_num at *; linarith
  rw [abs_le]
  constructor
  · rw [neg_le_sub_iff_le_add, ← sub_le_iff_le_add, le_div_iff₀ h0]; norm_num at *; linarith
  · rw [sub_le_iff_le_add, div_le_iff₀ h0]; norm_num at *; linarith

/-! ### The runners -/

theorem prep_dist_mdp {α : Type} [PyNum α] {p q : PropSt α} (h : qlrpflPrep p = .ok q) : q.dist = PyNum.ofInt p.pfl.np * p.pfl.xi ∧ q.mdp = -1 := by
  unfold qlrpflPrep at h
  obtain ⟨⟨the, dl⟩, _, h⟩ := bind_eq_ok.1 h
  obtain ⟨dh, _, h⟩ := bind_eq_ok.1 h
  dsimp only at h
  split_ifs at h with h1
  · obtain ⟨p', hp', h⟩ := bind_eq_ok.1 h
    rw [pure_ok, ok_inj] at h; subst h
    unfold pflLos at hp'
    obtain ⟨⟨za, zb⟩, _, hp'⟩ := bind_eq_ok.1 hp'
    obtain ⟨z0, _, hp'⟩ := bind_eq_ok.1 hp'
    obtain ⟨z1, _, hp'⟩ := bind_eq_ok.1 hp'
    obtain ⟨d0, _, hp'⟩ := bind_eq_ok.1 hp'
    obtain ⟨d1, _, hp'⟩ := bind_eq_ok.1 hp'
    dsimp only at hp'
    split_ifs at hp' with h2
    · obtain ⟨q1, _, hp'⟩ := bind_eq_ok.1 hp'
      obtain ⟨d2, _, hp'⟩ := bind_eq_ok.1 hp'
      obtain ⟨d3, _, hp'⟩ := bind_eq_ok.1 hp'
      rw [pure_bind'] at hp'
      obtain ⟨t0, _, hp'⟩ := bind_eq_ok.1 hp'
      obtain ⟨t1, _, hp'⟩ := bind_eq_ok.1 hp'
      rw [pure_ok, ok_inj] at hp'; subst hp'
      rw [prepMarks_eq]; exact ⟨rfl, rfl⟩
    · rw [pure_bind'] at hp'
      obtain ⟨t0, _, hp'⟩ := bind_eq_ok.1 hp'
      obtain ⟨t1, _, hp'⟩ := bind_eq_ok.1 hp'
      rw [pure_ok, ok_inj] at hp'; subst hp'
      rw [prepMarks_eq]; exact ⟨rfl, rfl⟩
  · obtain ⟨p', hp', h⟩ := bind_eq_ok.1 h
    rw [pure_ok, ok_inj] at h; subst h
    unfold pflObs at hp'
    obtain ⟨⟨za, _⟩, _, hp'⟩ := bind_eq_ok.1 hp'
    obtain ⟨⟨_, zb⟩, _, hp'⟩ := bind_eq_ok.1 hp'
    obtain ⟨z0, _, hp'⟩ := bind_eq_ok.1 hp'
    obtain ⟨z1, _, hp'⟩ := bind_eq_ok.1 hp'
    rw [pure_ok, ok_inj] at hp'; subst hp'
    rw [prepMarks_eq]; exact ⟨rfl, rfl⟩

/-- The distance of the link the point-to-point runner computes with is the one the user gave. -/
theorem p2p_dist {p s q : PropSt ℝ} {profile : List ℝ} {fs : ℝ} (hs : p2pSetup p profile = .ok s) (hq : qlrpfl s = .ok q)
    (hfs : freeSpace q.wn q.dist = .ok fs) : q.dist = p.d * 1000 ∧ q.wn = p.fmhz / 47.7 ∧ 0 < p.d ∧ 0 < p.fmhz := by
  have P := p2pPrep_ok hs hq
  obtain ⟨hpos, -⟩ := freeSpace_ok hfs
  obtain ⟨xi, zgnd, hx, rfl⟩ := p2pSetup_ok hs
  unfold qlrpfl at hq
  obtain ⟨t, ht, hq⟩ := bind_eq_ok.1 hq
  obtain ⟨e1, e2⟩ := prep_dist_mdp ht
  have e3 := (lrprop_dist hq).1
  rw [if_neg (by rw [e2]; norm_num), e1] at e3
  dsimp only at e3
  unfold p2pSys at hx
  obtain ⟨x, hx1, hx⟩ := bind_eq_ok.1 hx
  obtain ⟨hn, ex⟩ := pyDiv_eq_ok.1 hx1
  obtain ⟨_, -, hx⟩ := bind_eq_ok.1 hx
  obtain rfl : x = xi := by
    dsimp only at hx
    split_ifs at hx
    · obtain ⟨_, -, hx⟩ := bind_eq_ok.1 hx
      rw [pure_ok, ok_inj] at hx
      exact (Prod.mk.inj hx).1
    · rw [pure_bind', pure_ok, ok_inj] at hx
      exact (Prod.mk.inj hx).1
  rw [rofInt] at e3 hn ex
  have hw := P.wn
  have hd : 0 < p.d := by
    by_contra hc
    rw [not_lt] at hc
    have : p.d ≤ (0.0 : ℝ) := by norm_num; exact hc
    rw [if_pos this] at ex
    rw [e3, ex] at hpos
    norm_num at hpos
  have hd' : ¬ p.d ≤ (0.0 : ℝ) := by norm_num; exact hd
  rw [if_neg hd'] at ex
  have e4 : q.dist = p.d * 1000 := by
    rw [e3, ex]
    field_simp
    norm_num
  refine ⟨e4, hw, hd, ?_⟩
  rw [e4, hw] at hpos
  by_contra hc
  rw [not_lt] at hc
  have : 2 * (p.fmhz / 47.7) ≤ 0 := mul_nonpos_of_nonneg_of_nonpos (by norm_num) (div_nonpos_of_nonpos_of_nonneg hc (by norm_num))
  have := mul_nonpos_of_nonpos_of_nonneg this (by positivity : 0 ≤ p.d * 1000)
  linarith

/-- **C81** (point to point) Whenever `p2p.py` answers, frequency and distance were positive and every loss at levels from 1 to 99 percent lies between
Friis' free-space loss over the distance the user gave, less 21 dB, and that plus the reference attenuation plus 130.003 dB. -/
theorem C81_p2p {qc qr : List Int} {p r : PropSt ℝ} {profile : List ℝ} {rows : List (P2PRow ℝ)} {msgs : List P2PMsg}
    (hf : 0.000001 ≤ p.fmhz) (hf' : p.fmhz ≤ 1000000000) (hd : 0.000001 ≤ p.d * 1000) (hd' : p.d * 1000 ≤ 1000000000)
    (h : itmlogicP2PAt qc qr p profile = .ok (rows, msgs, r)) :
    ∃ s q ar, p2pSetup p profile = .ok s ∧ qlrpfl s = .ok q ∧ q.aref = some ar ∧ 0 ≤ ar ∧ ∀ row ∈ rows,
      1 ≤ row.reliability → row.reliability ≤ 99 → 1 ≤ row.confidence → row.confidence ≤ 99 →
      friis p.fmhz (p.d * 1000) - 21 ≤ row.loss ∧ row.loss ≤ friis p.fmhz (p.d * 1000) + ar + 130.003 := by
  obtain ⟨s, q, fs, ar, hs, hq, hfs, har, h0, hr⟩ := C80_p2p h
  obtain ⟨e1, e2, -, -⟩ := p2p_dist hs hq hfs
  rw [e1, e2] at hfs
  have k := C81_friis hf hf' hd hd' hfs
  refine ⟨s, q, ar, hs, hq, har, h0, fun row hrow r1 r2 c1 c2 => ?_⟩
  obtain ⟨b1, b2⟩ := (hr row hrow).2 r1 r2 c1 c2
  rw [abs_le] at k
  constructor <;> linarith [k.1, k.2]

/-- **C81** Whoever asks `p2p.py` for a link of no length or no frequency gets no answer. -/
theorem C81_positive {qc qr : List Int} {p r : PropSt ℝ} {profile : List ℝ} {rows : List (P2PRow ℝ)} {msgs : List P2PMsg}
    (h : itmlogicP2PAt qc qr p profile = .ok (rows, msgs, r)) : 0 < p.d ∧ 0 < p.fmhz := by
  obtain ⟨s, q, fs, _, _, hs, hq, hfs, _⟩ := itmlogicP2PAt_ok h
  exact (p2p_dist hs hq hfs).2.2

/-- **C81** (area) Each loss of `area.py` at levels from 1 to 99 percent lies between Friis' free-space loss over the distance printed beside it, less
24 dB, and that plus a reference attenuation plus 160.003 dB. -/
theorem C81_area {qt ql : Int} {qc : List Int} {g : Grid ℝ} {kst : Pair Int} {p r : PropSt ℝ} {rows : List (AreaRow ℝ)}
    (hf : 0.000001 ≤ p.fmhz) (hf' : p.fmhz ≤ 1000000000) (h : itmlogicAreaAt qt ql qc g kst p = .ok (rows, r))
    (ht : 1 ≤ qt) (ht' : qt ≤ 99) (hl : 1 ≤ ql) (hl' : ql ≤ 99) :
    ∀ row ∈ rows, 0.000001 ≤ row.distance_km * 1000 → row.distance_km * 1000 ≤ 1000000000 → 1 ≤ row.confidence → row.confidence ≤ 99 →
      ∃ ar : ℝ, 0 ≤ ar ∧ (∃ (q : PropSt ℝ) (fs : ℝ), q.aref = some ar ∧ AreaRowFor q row.distance_km fs qt ql row.confidence row) ∧
        friis p.fmhz (row.distance_km * 1000) - 24 ≤ row.loss ∧ row.loss ≤ friis p.fmhz (row.distance_km * 1000) + ar + 160.003 := by
  intro row hrow d1 d2 c1 c2
  obtain ⟨fs, ar, hfs, h0, ⟨q, hq, hq'⟩, -, hb⟩ := C80_area h row hrow
  have e : (1000.0 : ℝ) = 1000 := by norm_num
  rw [e] at hfs
  have k := C81_friis hf hf' d1 d2 hfs
  obtain ⟨b1, b2⟩ := hb ht ht' hl hl' c1 c2
  rw [abs_le] at k
  refine ⟨ar, h0, ⟨q, fs, hq, hq'⟩, ?_, ?_⟩ <;> linarith [k.1, k.2]

/-! ### Cases -/

/-- A Wi-Fi link of 1 km: the code's free space is Friis'. -/
example : ∃ fs : ℝ, freeSpace (2400 / 47.7) 1000 = .ok fs ∧ |fs - (friis 2400 1000 + 0.00245)| ≤ 0.00005 := by
  have h : freeSpace (2400 / 47.7 : ℝ) 1000 = .ok (8.685890 * Real.log (2.0 * (2400 / 47.7) * 1000)) := by
    unfold freeSpace
    rw [npLog_ok (by norm_num), ok_bind, pure_ok]
  exact ⟨_, h, C81_friis (by norm_num) (by norm_num) (by norm_num) (by norm_num) h⟩

/-- The documented link is answered, so C81 speaks of its rows. -/
example (p : PropSt ℝ) : ∃ rows msgs r ar, itmlogicP2PAt p2pQc p2pQr (p2pUser p) docsProfile = .ok (rows, msgs, r) ∧ 0 ≤ ar ∧ ∀ row ∈ rows,
      1 ≤ row.reliability → row.reliability ≤ 99 → 1 ≤ row.confidence → row.confidence ≤ 99 →
      friis 41.5 (77.8 * 1000) - 21 ≤ row.loss ∧ row.loss ≤ friis 41.5 (77.8 * 1000) + ar + 130.003 := by
  obtain ⟨rows, msgs, r, h⟩ := docs_answered p2pQc p2pQr p
  obtain ⟨s, q, ar, -, -, -, h0, hr⟩ := C81_p2p (by norm_num [p2pUser]) (by norm_num [p2pUser]) (by norm_num [p2pUser]) (by norm_num [p2pUser]) h
  exact ⟨rows, msgs, r, ar, h, h0, hr⟩

/-- Both set-ups succeed. -/
example : ∃ s, areaSetup areaLink = .ok s ∧ |1 / s.gme - 4 / 3 * earthRadius| ≤ 3000 := by
  obtain ⟨rows, r, h⟩ := C46_accepted_partial areaLink_level.1 ⟨2, 2⟩ 50 50 areaQc
  obtain ⟨_, _, _, s, _, _, _, _, _, hs, _⟩ := itmlogicAreaAt_ok h
  exact ⟨s, hs, C81_earth_area hs⟩

end Itm.Props
