import Verif.Model.Programs
import Verif.Spec.EndToEnd
import Verif.Lemmas.Zlsq
import Verif.Lemmas.Dlthx
import Verif.Lemmas.DocsLink
import Mathlib.Algebra.BigOperators.Field

/-! The path of the documented link: horizons, foregrounds, effective heights. -/

namespace Itm.Spec
open Itm Finset

/-- The heights of the documented profile. -/
def docsInt : List ℤ := [
  96,  84,  65,  46,  46,  46,  61,  41,  33,  27,  23,  19,  15,  15,  15,
  15,  15,  15,  15,  15,  15,  15,  15,  15,  17,  19,  21,  23,  25,  27,
  29,  35,  46,  41,  35,  30,  33,  35,  37,  40,  35,  30,  51,  62,  76,
  46,  46,  46,  46,  46,  46,  50,  56,  67, 106,  83,  95, 112, 137, 137,
  76, 103, 122, 122,  83,  71,  61,  64,  67,  71,  74,  77,  79,  86,  91,
  83,  76,  68,  63,  76, 107, 107, 107, 119, 127, 133, 135, 137, 142, 148,
  152, 152, 107, 137, 104,  91,  99, 120, 152, 152, 137, 168, 168, 122, 137,
  137, 170, 183, 183, 187, 194, 201, 192, 152, 152, 166, 177, 198, 156, 127,
  116, 107, 104, 101,  98,  95, 103,  91,  97, 102, 107, 107, 107, 103,  98,
  94,  91, 105, 122, 122, 122, 122, 122, 137, 137, 137, 137, 137, 137, 137,
  137, 140, 144, 147, 150, 152, 159]

/-- Height of a point. -/
def docsZ (j : ℕ) : ℤ := docsInt.getD j 0

/-- The path of the documented link. -/
noncomputable def docsPath : Path := profilePath 77.8 143.9 8.5 docsProfile

theorem docs_length : (docsProfile (α := ℝ)).length = 157 := by
  unfold docsProfile; rw [List.length_map]; rfl

theorem docs_n : docsPath.n = 156 := by
  show (docsProfile (α := ℝ)).length - 1 = 156
  rw [docs_length]

theorem docs_xi : docsPath.ξ = 77800 / 156 := by
  show 1000 * 77.8 / (((docsProfile (α := ℝ)).length - 1 : ℕ) : ℝ) = _
  rw [docs_length]; norm_num

theorem docs_len : docsPath.len = 77800 := by
  unfold Path.len
  rw [docs_n, docs_xi]; norm_num

theorem docs_z (j : ℕ) : docsPath.z j = docsZ j := by
  show (docsProfile (α := ℝ)).getD j 0 = _
  have : (docsProfile (α := ℝ)) = docsInt.map PyNum.ofInt := rfl
  rw [this, docsZ, List.getD_eq_getElem?_getD, List.getElem?_map, List.getD_eq_getElem?_getD]
  cases docsInt[j]? with
  | none => simp
  | some v => simp [rofInt]

theorem docs_κ : 1.147e-7 ≤ docsPath.κ ∧ docsPath.κ ≤ 1.149e-7 := by
  show 1.147e-7 ≤ curvature 314 ∧ curvature 314 ≤ 1.149e-7
  have u : Real.exp (314 / 179.3) ≤ 5.775 := by
    rw [← Real.le_log_iff_exp_le (by norm_num)]
    have := log_lower (y := 5.775) 17 43 (by norm_num) (by norm_num)
    norm_num at *; linarith
  have l : 5.7485 ≤ Real.exp (314 / 179.3) := by
    rw [← Real.log_le_iff_le_exp (by norm_num)]
    have := log_upper (y := 5.7485) 21 53 (by norm_num) (by norm_num) (by norm_num)
    norm_num at *; linarith
  unfold curvature
  generalize Real.exp (314 / 179.3) = e at *
  constructor <;> norm_num at * <;> linarith

/-- The rise of the earth over an interval. -/
theorem docs_rise : 14264 ≤ 1000000 * (docsPath.κ * docsPath.ξ ^ 2 / 2) ∧ 1000000 * (docsPath.κ * docsPath.ξ ^ 2 / 2) ≤ 14289 := by
  obtain ⟨l, u⟩ := docs_κ
  rw [docs_xi]
  constructor <;> norm_num at * <;> linarith

theorem docs_linear {a b x : ℝ} (hx : 14264 ≤ x ∧ x ≤ 14289) (h1 : a + b * 14264 < 0) (h2 : a + b * 14289 < 0) : a + b * x < 0 := by
  obtain ⟨l, u⟩ := hx
  rcases le_total 0 b with hb | hb
  · have := mul_le_mul_of_nonneg_left u hb
    linarith
  · have := mul_le_mul_of_nonpos_left l hb
    linarith

theorem elevation_lt {κ h ξ z z' j m : ℝ} (hξ : 0 < ξ) (hj : 0 < j) (hm : 0 < m)
    (H : m * (z - h) - j * (z' - h) + m * (κ * ξ ^ 2 / 2) * j * (m - j) < 0) : elevation κ h (j * ξ) z < elevation κ h (m * ξ) z' := by
  have e : elevation κ h (j * ξ) z - elevation κ h (m * ξ) z' =
      (m * (z - h) - j * (z' - h) + m * (κ * ξ ^ 2 / 2) * j * (m - j)) / (m * j * ξ) := by
    unfold elevation
    field_simp
    ring
  have : (m * (z - h) - j * (z' - h) + m * (κ * ξ ^ 2 / 2) * j * (m - j)) / (m * j * ξ) < 0 :=
    div_neg_of_neg_of_pos H (by positivity)
  linarith

/-- Heights of the antennas in decimetres. -/
theorem docs_top0 : docsPath.z 0 + docsPath.hg₀ = 239.9 := by
  rw [docs_z]; show ((docsZ 0 : ℤ) : ℝ) + 143.9 = _; rw [show docsZ 0 = 96 from rfl]; norm_num

theorem docs_top1 : docsPath.z docsPath.n + docsPath.hg₁ = 167.5 := by
  rw [docs_z, docs_n]; show ((docsZ 156 : ℤ) : ℝ) + 8.5 = _; rw [show docsZ 156 = 159 from rfl]; norm_num

/-- The rise of the earth between points, in units of a thousandth of a millimetre, lies between `14264` and `14289` per squared
interval; the transmitter sees no point above the 111th. -/
theorem docs_table0 : ∀ j ∈ List.range 157, 1 ≤ j → j ≠ 111 → ∀ k ∈ [(14264 : ℤ), 14289],
    111 * (1000000 * (if j = 156 then 0 else docsZ j) + (if j = 156 then 167500000 else 0) - 239900000) - (j : ℤ) * (1000000 * 201 - 239900000) + 111 * k * j * (111 - j) < 0 := by
  decide +kernel

theorem docs_table1 : ∀ j ∈ List.range 157, j < 156 → j ≠ 117 → ∀ k ∈ [(14264 : ℤ), 14289],
    39 * (1000000 * (if j = 0 then 0 else docsZ j) + (if j = 0 then 239900000 else 0) - 167500000) - (156 - j : ℤ) * (1000000 * 198 - 167500000) + 39 * k * (156 - j) * (39 - (156 - j)) < 0 := by
  decide +kernel

theorem docs_view0 {j : ℕ} (h1 : 1 ≤ j) (h2 : j ≤ 155) (hne : j ≠ 111) :
    elevation docsPath.κ 239.9 (j * docsPath.ξ) (docsPath.z j) < elevation docsPath.κ 239.9 (111 * docsPath.ξ) (docsPath.z 111) := by
  have hj : (0 : ℝ) < j := by exact_mod_cast h1
  refine elevation_lt (by rw [docs_xi]; norm_num) hj (by norm_num) ?_
  have T := docs_table0 j (List.mem_range.2 (by omega)) h1 hne
  have t1 := T 14264 (by simp)
  have t2 := T 14289 (by simp)
  rw [if_neg (by omega), if_neg (by omega)] at t1 t2
  rw [docs_z, docs_z, show docsZ 111 = 201 from rfl]
  generalize docsZ j = z at *
  have t1' := (Int.cast_lt (R := ℝ)).2 t1
  have t2' := (Int.cast_lt (R := ℝ)).2 t2
  push_cast at t1' t2'
  have := docs_linear (a := 111 * (1000000 * (z : ℝ) - 239900000) - j * (1000000 * 201 - 239900000)) (b := 111 * j * (111 - j)) docs_rise
    (by linarith) (by linarith)
  generalize docsPath.κ * docsPath.ξ ^ 2 / 2 = k at *
  push_cast
  linarith

theorem docs_far0 : elevation docsPath.κ 239.9 77800 167.5 < elevation docsPath.κ 239.9 (111 * docsPath.ξ) (docsPath.z 111) := by
  have e : (77800 : ℝ) = 156 * docsPath.ξ := by rw [docs_xi]; norm_num
  rw [e]
  refine elevation_lt (by rw [docs_xi]; norm_num) (by norm_num) (by norm_num) ?_
  rw [docs_z, show docsZ 111 = 201 from rfl]
  have := docs_rise
  generalize docsPath.κ * docsPath.ξ ^ 2 / 2 = k at *
  push_cast
  norm_num at *
  linarith

theorem docs_view1 {j : ℕ} (h1 : 1 ≤ j) (h2 : j ≤ 155) (hne : j ≠ 117) :
    elevation docsPath.κ 167.5 ((156 - j) * docsPath.ξ) (docsPath.z j) < elevation docsPath.κ 167.5 (39 * docsPath.ξ) (docsPath.z 117) := by
  have hj : (j : ℝ) < 156 := by exact_mod_cast (by omega : j < 156)
  refine elevation_lt (by rw [docs_xi]; norm_num) (by linarith) (by norm_num) ?_
  have T := docs_table1 j (List.mem_range.2 (by omega)) (by omega) hne
  have t1 := T 14264 (by simp)
  have t2 := T 14289 (by simp)
  rw [if_neg (by omega), if_neg (by omega)] at t1 t2
  rw [docs_z, docs_z, show docsZ 117 = 198 from rfl]
  generalize docsZ j = z at *
  have t1' := (Int.cast_lt (R := ℝ)).2 t1
  have t2' := (Int.cast_lt (R := ℝ)).2 t2
  push_cast at t1' t2'
  have := docs_linear (a := 39 * (1000000 * (z : ℝ) - 167500000) - (156 - j) * (1000000 * 198 - 167500000)) (b := 39 * (156 - j) * (39 - (156 - j))) docs_rise
    (by linarith) (by linarith)
  generalize docsPath.κ * docsPath.ξ ^ 2 / 2 = k at *
  push_cast
  linarith

theorem docs_far1 : elevation docsPath.κ 167.5 77800 239.9 < elevation docsPath.κ 167.5 (39 * docsPath.ξ) (docsPath.z 117) := by
  have e : (77800 : ℝ) = 156 * docsPath.ξ := by rw [docs_xi]; norm_num
  rw [e]
  refine elevation_lt (by rw [docs_xi]; norm_num) (by norm_num) (by norm_num) ?_
  rw [docs_z, show docsZ 117 = 198 from rfl]
  have := docs_rise
  generalize docsPath.κ * docsPath.ξ ^ 2 / 2 = k at *
  push_cast
  norm_num at *
  linarith

theorem horizon_at {view : ℕ → ℝ} {far : ℝ} {pos : ℕ → ℝ} {full : ℝ} {m j : ℕ} {θ d : ℝ} (h : IsHorizon view far pos full m θ d)
    (h1 : 1 ≤ j) (h2 : j ≤ m) (hf : far < view j) (hv : ∀ i, 1 ≤ i → i ≤ m → i ≠ j → view i < view j) : θ = view j ∧ d = pos j := by
  have hj := h.view_le j h1 h2
  rcases h.attained with ⟨e, -⟩ | ⟨i, i1, i2, -, e, ed, -⟩
  · linarith
  · by_cases hi : i = j
    · subst hi; exact ⟨e, ed⟩
    · have := hv i i1 i2 hi
      linarith

/-- The horizons are the 111th point from the transmitter and the 39th from the receiver. -/
theorem docs_horizons {θ₀ θ₁ d₀ d₁ : ℝ} (h : docsPath.Horizons θ₀ θ₁ d₀ d₁) :
    θ₀ = elevation docsPath.κ 239.9 (111 * docsPath.ξ) (docsPath.z 111) ∧ d₀ = 111 * docsPath.ξ ∧
    θ₁ = elevation docsPath.κ 167.5 (39 * docsPath.ξ) (docsPath.z 117) ∧ d₁ = 39 * docsPath.ξ := by
  obtain ⟨h0, h1⟩ := h
  rw [docs_top0, docs_len, docs_top1, docs_n] at h0
  rw [docs_top1, docs_len, docs_top0, docs_n] at h1
  have e : ((156 : ℕ) : ℝ) - ((117 : ℕ) : ℝ) = 39 := by norm_num
  obtain ⟨a, b⟩ := horizon_at (j := 111) h0 (by norm_num) (by norm_num) (by push_cast; exact docs_far0)
    (fun i i1 i2 hi => by have := docs_view0 i1 (by omega) hi; push_cast; exact this)
  obtain ⟨a', b'⟩ := horizon_at (j := 117) h1 (by norm_num) (by norm_num) (by rw [e]; exact docs_far1)
    (fun i i1 i2 hi => by have := docs_view1 i1 (by omega) hi; rw [e]; push_cast; exact this)
  rw [e] at a' b'
  push_cast at a b
  exact ⟨a, b, a', b'⟩

theorem docs_obstructed : ¬ docsPath.Clear := by
  intro h
  have := h 111 (by norm_num) (by rw [docs_n]; norm_num)
  rw [docs_top0, docs_top1, docs_n, docs_z, show docsZ 111 = 201 from rfl] at this
  have r := docs_rise.1
  have e : docsPath.κ / 2 * (((111 : ℕ) : ℝ) * docsPath.ξ) * ((((156 : ℕ) : ℝ) - ((111 : ℕ) : ℝ)) * docsPath.ξ) =
      4995 * (docsPath.κ * docsPath.ξ ^ 2 / 2) := by push_cast; ring
  rw [e] at this
  generalize docsPath.κ * docsPath.ξ ^ 2 / 2 = k at *
  norm_num at *
  linarith

theorem docs_trap (a m : ℕ) : trap docsPath.z a m = ((∑ i ∈ range m, (docsZ (a + i) + docsZ (a + i + 1)) : ℤ) : ℝ) / 2 := by
  unfold trap
  rw [← Finset.sum_div]
  push_cast
  congr 1
  refine sum_congr rfl fun i _ => ?_
  rw [docs_z, docs_z]

theorem docs_trap_x (a m : ℕ) (c : ℤ) : trap (fun j => docsPath.z j * ((j : ℝ) - c)) a m =
    ((∑ i ∈ range m, (docsZ (a + i) * ((a + i : ℕ) - c) + docsZ (a + i + 1) * ((a + i + 1 : ℕ) - c)) : ℤ) : ℝ) / 2 := by
  unfold trap
  rw [← Finset.sum_div]
  push_cast
  congr 1
  refine sum_congr rfl fun i _ => ?_
  rw [docs_z, docs_z]

theorem docs_sum0 : (∑ i ∈ range 96, (docsZ (4 + i) + docsZ (4 + i + 1))) = 13057 := by decide +kernel
theorem docs_sum0x : (∑ i ∈ range 96, (docsZ (4 + i) * ((4 + i : ℕ) - 52) + docsZ (4 + i + 1) * ((4 + i + 1 : ℕ) - 52))) = 194626 := by decide +kernel
theorem docs_sum1 : (∑ i ∈ range 36, (docsZ (120 + i) + docsZ (120 + i + 1))) = 8573 := by decide +kernel
theorem docs_sum1x : (∑ i ∈ range 36, (docsZ (120 + i) * ((120 + i : ℕ) - 138) + docsZ (120 + i + 1) * ((120 + i + 1 : ℕ) - 138))) = 12990 := by decide +kernel

theorem docs_fit0 (t : ℝ) : fitAt docsPath.z 4 96 t = 13057 / 192 + 12 * 97313 / (9218 * 96) * (t - 52) := by
  have e : mid 4 96 = ((52 : ℤ) : ℝ) := by unfold mid; norm_num
  unfold fitAt fitA fitB
  rw [e, docs_trap, docs_trap_x, docs_sum0, docs_sum0x]
  push_cast; ring

theorem docs_fit1 (t : ℝ) : fitAt docsPath.z 120 36 t = 8573 / 72 + 12 * 6495 / (1298 * 36) * (t - 138) := by
  have e : mid 120 36 = ((138 : ℤ) : ℝ) := by unfold mid; norm_num
  unfold fitAt fitA fitB
  rw [e, docs_trap, docs_trap_x, docs_sum1, docs_sum1x]
  push_cast; ring

/-- The geometry of the documented path. -/
theorem docs_geometry {zr : ℝ} {G : Geometry} (h : docsPath.IsGeometry zr G) :
    240.4 ≤ G.he₀ ∧ G.he₀ ≤ 240.6 ∧ 18.3 ≤ G.he₁ ∧ G.he₁ ≤ 18.5 ∧ G.dl₀ = 111 * (77800 / 156) ∧ G.dl₁ = 39 * (77800 / 156) ∧
    (-0.0039 ≤ G.the₀ ∧ G.the₀ ≤ -0.0038) ∧ (0.0004 ≤ G.the₁ ∧ G.the₁ ≤ 0.0005) ∧ (-0.00345 ≤ G.the₀ + G.the₁ ∧ G.the₀ + G.the₁ ≤ -0.0034) ∧ 0 ≤ G.dh := by
  obtain ⟨θ₀, θ₁, d₀, d₁, x, y, hH, hx, hy, hI, -, hO⟩ := h
  obtain ⟨e1, e2, e3, e4⟩ := docs_horizons hH
  obtain ⟨⟨c, s, hf, he⟩, ⟨c', s', hf', he'⟩, q1, q2, q3, q4⟩ := hO docs_obstructed
  have g0 : docsPath.hg₀ = 143.9 := rfl
  have g1 : docsPath.hg₁ = 8.5 := rfl
  have hx' : x = 2158.5 := by
    rw [hx, e2, docs_xi, g0, min_eq_left (by norm_num)]; norm_num
  have hy' : y = 77672.5 := by
    rw [hy, e4, docs_xi, docs_len, g1, min_eq_left (by norm_num)]; norm_num
  have f0 : ⌊x / docsPath.ξ⌋ = 4 := by
    rw [hx', docs_xi, Int.floor_eq_iff]; constructor <;> norm_num
  have c0 : ⌈0.9 * d₀ / docsPath.ξ⌉ = 100 := by
    rw [e2, docs_xi, Int.ceil_eq_iff]; constructor <;> norm_num
  have f1 : ⌊(docsPath.len - 0.9 * d₁) / docsPath.ξ⌋ = 120 := by
    rw [e4, docs_len, docs_xi, Int.floor_eq_iff]; constructor <;> norm_num
  have c1 : ⌈y / docsPath.ξ⌉ = 156 := by
    rw [hy', docs_xi, Int.ceil_eq_iff]; constructor <;> norm_num
  unfold Path.FitOver at hf hf'
  rw [f0, c0] at hf
  rw [f1, c1] at hf'
  obtain ⟨hc, -⟩ := best_unique (show 0 < ((100 : ℤ) - 4).toNat by decide) hf
  obtain ⟨hc', hs'⟩ := best_unique (show 0 < ((156 : ℤ) - 120).toNat by decide) hf'
  have hc : c = fitAt docsPath.z 4 96 0 := hc
  have hc' : c' + s' * docsPath.n = fitAt docsPath.z 120 36 156 := by
    rw [hc', hs', docs_n]
    show fitAt docsPath.z 120 36 0 + fitB docsPath.z 120 36 * ((156 : ℕ) : ℝ) = _
    unfold fitAt; push_cast; ring
  rw [docs_fit0] at hc
  rw [docs_fit1] at hc'
  have z0 : docsPath.z 0 = 96 := by rw [docs_z, show docsZ 0 = 96 from rfl]; norm_num
  have zn : docsPath.z docsPath.n = 159 := by rw [docs_n, docs_z, show docsZ 156 = 159 from rfl]; norm_num
  rw [hc, z0, g0, max_eq_left (by norm_num)] at he
  rw [hc', zn, g1, max_eq_left (by norm_num)] at he'
  have hdh : 0 ≤ G.dh := by
    obtain ⟨i1, i2⟩ := hI
    rcases le_or_gt 2 (y / docsPath.ξ - x / docsPath.ξ) with hh | hh
    · exact irregularity_nonneg (by rw [hx', hy']; norm_num) (i1 hh)
    · rw [i2 hh]
  have t0 : G.the₀ = (201 - 239.9) / (111 * (77800 / 156)) - docsPath.κ / 2 * (111 * (77800 / 156)) := by
    rw [q3, e1, docs_z, show docsZ 111 = 201 from rfl, docs_xi]; unfold elevation; push_cast; ring
  have t1 : G.the₁ = (198 - 167.5) / (39 * (77800 / 156)) - docsPath.κ / 2 * (39 * (77800 / 156)) := by
    rw [q4, e3, docs_z, show docsZ 117 = 198 from rfl, docs_xi]; unfold elevation; push_cast; ring
  obtain ⟨l, u⟩ := docs_κ
  rw [t0, t1, q1, q2, e2, e4, he, he', docs_xi]
  generalize docsPath.κ = κ at l u ⊢
  clear he he' hf hf' hc hc' hI hH hx hy hO t0 t1
  refine ⟨by norm_num, by norm_num, by norm_num, by norm_num, rfl, rfl, ⟨?_, ?_⟩, ⟨?_, ?_⟩, ⟨?_, ?_⟩, hdh⟩ <;> norm_num at l u ⊢ <;> linarith

theorem docs_impedance {z : ℂ} (h : IsImpedance 15 0.005 (waveNumber 41.5) false z) : 3.75 ≤ ‖z‖ ∧ ‖z‖ ≤ 3.78 := by
  obtain ⟨r, hr, -, hz⟩ := h
  have hz : z = r := hz
  subst hz
  have e : ‖z‖ ^ 2 = ‖permittivity 15 0.005 (waveNumber 41.5) - 1‖ := by rw [← hr, norm_pow]
  have e2 : ‖permittivity 15 0.005 (waveNumber 41.5) - 1‖ ^ 2 = 14 ^ 2 + (376.62 * 0.005 / (41.5 / 47.7)) ^ 2 := by
    rw [← Complex.normSq_eq_norm_sq, Complex.normSq_apply]
    unfold permittivity waveNumber
    simp only [Complex.sub_re, Complex.sub_im, Complex.one_re, Complex.one_im]
    ring
  rw [← e] at e2
  have n0 := norm_nonneg z
  generalize ‖z‖ = x at *
  have e3 : x ^ 4 = 14 ^ 2 + (376.62 * 0.005 / (41.5 / 47.7)) ^ 2 := by rw [← e2]; ring
  constructor
  · by_contra hlt
    have := pow_lt_pow_left₀ (not_le.1 hlt) n0 (show (4 : ℕ) ≠ 0 by norm_num)
    rw [e3] at this
    norm_num at this
  · by_contra hlt
    have := pow_lt_pow_left₀ (not_le.1 hlt) (by norm_num) (show (4 : ℕ) ≠ 0 by norm_num)
    rw [e3] at this
    norm_num at this

/-- The documented path gives the documented link. -/
theorem docs_link {zr : ℝ} {G : Geometry} {z : ℂ} {N : ℝ} (h : docsPath.IsGeometry zr G) (hz : IsImpedance 15 0.005 (waveNumber 41.5) false z) :
    DocsLink (docsPath.link G (waveNumber 41.5) N z) ∧ (docsPath.link G (waveNumber 41.5) N z).Usable := by
  obtain ⟨a1, a2, b1, b2, d0, d1, t0, t1, t2, hdh⟩ := docs_geometry h
  obtain ⟨z1, z2⟩ := docs_impedance hz
  have D : DocsLink (docsPath.link G (waveNumber 41.5) N z) :=
    ⟨rfl, docs_κ.1, docs_κ.2, a1, a2, b1, b2, d0, d1, t2.1, t2.2, rfl, rfl, rfl, z1, z2, hdh⟩
  refine ⟨D, D.usable ?_ ?_⟩
  · show |G.the₀| ≤ 0.2
    rw [abs_le]; constructor <;> norm_num at * <;> linarith
  · show |G.the₁| ≤ 0.2
    rw [abs_le]; constructor <;> norm_num at * <;> linarith

end Itm.Spec
