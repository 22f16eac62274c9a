import Verif.Lemmas.ScatReal
import Verif.Lemmas.LogBounds
import Verif.Spec.Leaf

/-! C30: scatter distance function. C31: frequency gain. C32: inadmissible scatter. -/

namespace Itm.Props
open Itm Itm.Spec

/-! ### C30 -/

theorem ahd_inv {td a : ℝ} (h : ahd td = .ok a) : 0 < td ∧ a = ahdR td := by
  have h0 : 0 < td := by
    unfold ahd at h
    obtain ⟨l, hl, _⟩ := bind_eq_ok.1 h
    exact (npLog_eq_ok.1 hl).1
  rw [ahd_ok h0, ok_inj] at h
  exact ⟨h0, h.symm⟩

theorem log_diff {u v : ℝ} (hu : 0 < u) (huv : u < v) :
    Real.log v - Real.log u ≤ (v - u) / u ∧ (v - u) / v ≤ Real.log v - Real.log u := by
  have hv : 0 < v := hu.trans huv
  constructor
  · have := Real.log_le_sub_one_of_pos (x := v / u) (by positivity)
    rw [Real.log_div hv.ne' hu.ne'] at this
    rw [sub_div, div_self hu.ne']; exact this
  · have := Real.log_le_sub_one_of_pos (x := u / v) (by positivity)
    rw [Real.log_div hu.ne' hv.ne'] at this
    rw [sub_div, div_self hv.ne']; linarith

/-- **C30** Defined exactly for positive arguments. -/
theorem C30_domain (td : ℝ) : (∃ a, ahd td = .ok a) ↔ 0 < td :=
  ⟨fun ⟨_, h⟩ => (ahd_inv h).1, fun h => ⟨_, ahd_ok h⟩⟩

/-- **C30** Strictly decreasing up to 10 km, strictly increasing from 10 to 70 km and from 70 km on. -/
theorem C30_shape {u v a b : ℝ} (huv : u < v) (ha : ahd u = .ok a) (hb : ahd v = .ok b) :
    (v ≤ 10000 → b < a) ∧ (10000 < u → v ≤ 70000 → a < b) ∧ (70000 < u → a < b) := by
  obtain ⟨hu, rfl⟩ := ahd_inv ha
  obtain ⟨hv, rfl⟩ := ahd_inv hb
  obtain ⟨l1, l2⟩ := log_diff hu huv
  have e1 : (10e3 : ℝ) = 10000 := by norm_num
  have e7 : (70e3 : ℝ) = 70000 := by norm_num
  have low : ∀ {t : ℝ}, t ≤ 10000 → ahdR t = 133.4 + 0.332e-3 * t + -4.343 * Real.log t := by
    intro t h; unfold ahdR; rw [e1, if_pos h]
  have mid : ∀ {t : ℝ}, 10000 < t → t ≤ 70000 → ahdR t = 104.6 + 0.212e-3 * t + -1.086 * Real.log t := by
    intro t h1 h2; unfold ahdR; rw [e1, e7, if_neg (by linarith), if_pos h2]
  have far : ∀ {t : ℝ}, 70000 < t → ahdR t = 71.8 + 0.157e-3 * t + 2.171 * Real.log t := by
    intro t h2; unfold ahdR; rw [e1, e7, if_neg (by linarith), if_neg (by linarith)]
  have hd : 0 < v - u := by linarith
  refine ⟨fun h => ?_, fun h1 h2 => ?_, fun h => ?_⟩
  · rw [low h, low (by linarith)]
    have : (v - u) / 10000 ≤ (v - u) / v := div_le_div_of_nonneg_left hd.le hv h
    generalize Real.log v = V at *
    generalize Real.log u = U at *
    have : (v - u) / 10000 ≤ V - U := this.trans l2
    norm_num; linarith
  · rw [mid h1 (by linarith), mid (by linarith) h2]
    have : (v - u) / u ≤ (v - u) / 10000 := div_le_div_of_nonneg_left hd.le (by norm_num) h1.le
    generalize Real.log v = V at *
    generalize Real.log u = U at *
    have : V - U ≤ (v - u) / 10000 := l1.trans this
    norm_num; linarith
  · rw [far h, far (by linarith)]
    have := Real.log_lt_log hu huv
    norm_num; linarith

/-- **C30** At least 96.7 dB. -/
theorem C30_floor {td a : ℝ} (h : ahd td = .ok a) : 96.7 < a := by
  obtain ⟨ht, rfl⟩ := ahd_inv h
  have e1 : (10e3 : ℝ) = 10000 := by norm_num
  have e7 : (70e3 : ℝ) = 70000 := by norm_num
  have hL := log_10k
  have hM := log_70k
  unfold ahdR
  rw [e1, e7]
  by_cases c1 : td ≤ 10000
  · rw [if_pos c1]
    rcases eq_or_lt_of_le c1 with rfl | c
    · norm_num at *; linarith
    · have := (log_diff ht c).2
      have h2 := this
      generalize Real.log td = V at *
      generalize Real.log 10000 = L at *
      norm_num at *; linarith
  · have c1 := not_le.1 c1
    rw [if_neg (not_le.2 c1)]
    by_cases c2 : td ≤ 70000
    · rw [if_pos c2]
      have h2 := (log_diff (by norm_num : (0:ℝ) < 10000) c1).1
      generalize Real.log td = V at *
      generalize Real.log 10000 = L at *
      norm_num at *; linarith
    · rw [if_neg c2]
      have h2 := Real.log_le_log (by norm_num) (not_le.1 c2).le
      generalize Real.log td = V at *
      generalize Real.log 70000 = L at *
      norm_num at *; linarith

/-- **C30** The jumps: nothing beyond 10 km (70 km) is more than 0.11 dB (0.32 dB) below the value there, and just above
the two joins the value differs by less than 0.2 and 0.32 dB. -/
theorem C30_jumps {td a : ℝ} (h : ahd td = .ok a) :
    (∀ b, ahd 10000 = .ok b → 10000 < td → b - 0.11 < a) ∧ (∀ b, ahd 70000 = .ok b → 70000 < td → b - 0.32 < a) ∧
    (∀ b, ahd 10000 = .ok b → 10000 < td → td ≤ 10100 → |a - b| < 0.2) ∧
    (∀ b, ahd 70000 = .ok b → 70000 < td → td ≤ 70010 → |a - b| < 0.32) := by
  obtain ⟨ht, rfl⟩ := ahd_inv h
  have e1 : (10e3 : ℝ) = 10000 := by norm_num
  have e7 : (70e3 : ℝ) = 70000 := by norm_num
  have hL := log_10k
  have hM := log_70k
  have v1 : ahdR 10000 = 133.4 + 0.332e-3 * 10000 + -4.343 * Real.log 10000 := by
    unfold ahdR; rw [e1, if_pos le_rfl]
  have v7 : ahdR 70000 = 104.6 + 0.212e-3 * 70000 + -1.086 * Real.log 70000 := by
    unfold ahdR; rw [e1, e7, if_neg (by norm_num), if_pos le_rfl]
  have mid : ∀ {t : ℝ}, 10000 < t → t ≤ 70000 → ahdR t = 104.6 + 0.212e-3 * t + -1.086 * Real.log t := by
    intro t h1 h2; unfold ahdR; rw [e1, e7, if_neg (by linarith), if_pos h2]
  have far : ∀ {t : ℝ}, 70000 < t → ahdR t = 71.8 + 0.157e-3 * t + 2.171 * Real.log t := by
    intro t h2; unfold ahdR; rw [e1, e7, if_neg (by linarith), if_neg (by linarith)]
  have p70 : ∀ {t : ℝ}, 70000 < t → ahdR 70000 - 0.32 < ahdR t := by
    intro t h2
    rw [far h2, v7]
    have h3 := Real.log_le_log (by norm_num) h2.le
    generalize Real.log t = V at *
    generalize Real.log 70000 = M at *
    norm_num at *; linarith
  have p10 : ∀ {t : ℝ}, 10000 < t → t ≤ 70000 → ahdR 10000 - 0.11 < ahdR t := by
    intro t h1 h2
    rw [mid h1 h2, v1]
    have h3 := (log_diff (by norm_num : (0:ℝ) < 10000) h1).1
    generalize Real.log t = V at *
    generalize Real.log 10000 = L at *
    norm_num at *; linarith
  have hb : ∀ {b : ℝ} {x : ℝ}, ahd x = .ok b → b = ahdR x := fun h => (ahd_inv h).2
  refine ⟨fun b hb' h1 => ?_, fun b hb' h1 => ?_, fun b hb' h1 h2 => ?_, fun b hb' h1 h2 => ?_⟩
  · rw [hb hb']
    by_cases c : td ≤ 70000
    · exact p10 h1 c
    · rw [far (not_le.1 c), v1]
      have h3 := Real.log_le_log (by norm_num) (not_le.1 c).le
      generalize Real.log td = V at *
      generalize Real.log 70000 = M at *
      generalize Real.log 10000 = L at *
      norm_num at *; linarith
  · rw [hb hb']; exact p70 h1
  · rw [hb hb', abs_lt]
    have h3 := p10 h1 (by linarith)
    rw [mid h1 (by linarith), v1] at *
    have h4 := Real.log_le_log (by norm_num) h1.le
    generalize Real.log td = V at *
    generalize Real.log 10000 = L at *
    norm_num at *
    constructor <;> linarith
  · rw [hb hb', abs_lt]
    have h3 := p70 h1
    rw [far h1, v7] at *
    have h4 := (log_diff (by norm_num : (0:ℝ) < 70000) h1).1
    generalize Real.log td = V at *
    generalize Real.log 70000 = M at *
    norm_num at *
    constructor <;> linarith

example : (∃ a, ahd (5000 : ℝ) = .ok a) ∧ (∃ a, ahd (10000 : ℝ) = .ok a) ∧ (∃ a, ahd (80000 : ℝ) = .ok a) :=
  ⟨(C30_domain _).2 (by norm_num), (C30_domain _).2 (by norm_num), (C30_domain _).2 (by norm_num)⟩

/-! ### C31 -/

theorem inv_sq_le {r s : ℝ} (hr : r ≠ 0) (h : |r| ≤ |s|) : (1.0 / s) ^ 2 ≤ (1.0 / r) ^ 2 := by
  rw [show (1.0 : ℝ) = 1 by norm_num, div_pow, div_pow, one_pow, ← sq_abs r, ← sq_abs s]
  have := abs_pos.2 hr
  refine one_div_le_one_div_of_le (by positivity) ?_
  nlinarith [abs_nonneg s]

/-- **C31** Never raises for `r ≠ 0` (and always does for `r = 0`), nonnegative. -/
theorem C31_total {r et : ℝ} : (r ≠ 0 → ∃ h, h0f r et = .ok h ∧ 0 ≤ h) ∧ (r = 0 → ∀ h, h0f r et ≠ .ok h) := by
  constructor
  · intro hr
    exact ⟨_, h0f_ok hr, tableR_nonneg (sq_nonneg _)⟩
  · intro hr h e
    unfold h0f at e
    dsimp only at e
    obtain ⟨x, hx, _⟩ := bind_eq_ok.1 e
    exact (pyDiv_eq_ok.1 hx).1 hr

/-- **C31** Nondecreasing in the scatter efficiency, nonincreasing in `|r|`. -/
theorem C31_monotone {r s e e' g g' : ℝ} (hr : |r| ≤ |s|) (he : e ≤ e') (h : h0f s e = .ok g) (h' : h0f r e' = .ok g') : g ≤ g' := by
  have hs0 : s ≠ 0 := fun c => (C31_total (et := e)).2 c _ h
  have hr0 : r ≠ 0 := fun c => (C31_total (et := e')).2 c _ h'
  rw [h0f_ok hs0, ok_inj] at h
  rw [h0f_ok hr0, ok_inj] at h'
  rw [← h, ← h']
  exact (tableR_mono_x (sq_nonneg _) (inv_sq_le hr0 hr)).trans (tableR_mono (sq_nonneg _) he)

/-- **C31** Constant for efficiency at most 1 and at least 5. -/
theorem C31_constant {r e : ℝ} (hr : r ≠ 0) : (e ≤ 1 → h0f r e = h0f r 1) ∧ (5 ≤ e → h0f r e = h0f r 5) := by
  rw [h0f_ok hr, h0f_ok hr, h0f_ok hr]
  have f1 : ⌊(1:ℝ)⌋ = 1 := Int.floor_one
  have f5 : ⌊(5:ℝ)⌋ = 5 := by exact_mod_cast Int.floor_intCast (R := ℝ) 5
  constructor
  · intro h
    congr 1
    rcases eq_or_lt_of_le h with rfl | h
    · rfl
    · unfold tableR
      rw [f1, if_pos (by have : ⌊e⌋ < 1 := Int.floor_lt.2 (by exact_mod_cast h); omega), if_neg (by norm_num), if_neg (by norm_num)]
      norm_num
  · intro h
    congr 1
    unfold tableR
    have : (5:ℤ) ≤ ⌊e⌋ := Int.le_floor.2 (by exact_mod_cast h)
    rw [f5, if_neg (by omega), if_pos this, if_neg (by norm_num), if_pos le_rfl]

/-- **C31** The values: the table row at integer efficiencies 1 to 5, linear interpolation between. -/
theorem C31_table {r e : ℝ} (hr : r ≠ 0) (k : ℕ) (hk : k + 1 < 5) (h1 : k + 1 ≤ e) (h2 : e ≤ k + 2) :
    h0f r e = .ok ((1 - (e - (k + 1))) * gainRow (gainRows.getD k (0, 0)) r + (e - (k + 1)) * gainRow (gainRows.getD (k + 1) (0, 0)) r) := by
  have row : ∀ n : ℕ, n < 5 → rowR n ((1.0 / r) ^ 2) = gainRow (gainRows.getD n (0, 0)) r := by
    intro n hn
    unfold rowR gainRow gainRows
    congr 2
    have e1 : (1.0 : ℝ) = 1 := by norm_num
    interval_cases n <;> simp only [rowA, rowB, List.getD_cons_zero, List.getD_cons_succ] <;> rw [e1] <;> field_simp <;> norm_num <;> ring
  rw [h0f_ok hr, ← row k (by omega), ← row (k + 1) (by omega)]
  congr 1
  have e1 : (1.0 : ℝ) = 1 := by norm_num
  rcases eq_or_lt_of_le h2 with h | h
  · have f : ⌊e⌋ = (k : ℤ) + 2 := by
      rw [h]; exact_mod_cast Int.floor_natCast (R := ℝ) (k + 2)
    have hc : e - (k + 1) = 1 := by rw [h]; ring
    rw [hc]
    unfold tableR
    rw [f, if_neg (by omega)]
    by_cases c : (5 : ℤ) ≤ (k : ℤ) + 2
    · rw [if_pos c]
      have : k + 1 = 4 := by omega
      rw [this]; ring
    · rw [if_neg c, e1]
      have : ((k : ℤ) + 2 - 1).toNat = k + 1 := by omega
      rw [this]
      push_cast
      rw [h]; ring
  · have f : ⌊e⌋ = (k : ℤ) + 1 := by
      rw [Int.floor_eq_iff]; push_cast; exact ⟨h1, by linarith⟩
    unfold tableR
    rw [f, if_neg (by omega), if_neg (by omega), e1]
    have t1 : ((k : ℤ) + 1 - 1).toNat = k := by omega
    have t2 : ((k : ℤ) + 1).toNat = k + 1 := by omega
    rw [t1, t2]
    push_cast; ring

example : ∃ h, h0f (0.3 : ℝ) 2.5 = .ok h ∧ 0 ≤ h := C31_total.1 (by norm_num)

/-! ### C32 -/

/-- **C32** (refuted in general) Whatever `ascat` decided about admissibility, the key ends as the ordinary scatter
attenuation: distance function, frequency and refractivity terms, and a frequency gain `h0` bounded through the two scatter
parameters. The value 1001 does not survive. -/
theorem C32_overwritten {d : ℝ} {p : PropSt ℝ} {h : Horizon ℝ} {s : ScatPrep ℝ} (ha : Adm (inp p)) (hh : p.hor = some h) (hs : p.sprep = some s)
    (hth : 0 < p.the.x0 + p.the.x1 + d * p.gme) (hth' : 0 < h.tha + d * p.gme) (had : 0 ≤ s.ad) (hd : s.ad < d) (hrr : 0 < s.rr)
    (hetq : -1 ≤ s.etq) :
    ∃ q h0 a, ascat d p = .ok q ∧ ahd ((h.tha + d * p.gme) * d) = .ok a ∧ 0 ≤ h0 ∧
      h0 ≤ max (max (gainRow (705, 105) (2 * p.wn * (p.the.x0 + p.the.x1 + d * p.gme) * p.he.x0) +
            gainRow (705, 105) (2 * p.wn * (p.the.x0 + p.the.x1 + d * p.gme) * p.he.x1))
          (4.343 * Real.log (((1 + 1.4142 / (2 * p.wn * (p.the.x0 + p.the.x1 + d * p.gme) * p.he.x0)) *
            (1 + 1.4142 / (2 * p.wn * (p.the.x0 + p.the.x1 + d * p.gme) * p.he.x1))) ^ 2))) s.h0s ∧
      q.ascat1 = a + 4.343 * Real.log (47.7 * p.wn * (h.tha + d * p.gme) ^ 4) -
        0.1 * (p.ens - 301) * Real.exp (-(h.tha + d * p.gme) * d / 40000) + h0 := by
  have hd0 : 0 < d := lt_of_le_of_lt had hd
  obtain ⟨h0, s', hc, h00, _, _, _, _, hU⟩ := ascatC_ok (i := inp p) (h := h) (s := s) (a1 := p.ascat1) (d := d) ha hth hth' had hd hrr hetq
  have he := ascat_eq hh hs d
  rw [hc, ok_bind] at he
  refine ⟨_, h0, _, he, ahd_ok (by positivity), h00, ?_, ?_⟩
  · have e2 : (2.0 : ℝ) = 2 := by norm_num
    have er : ascatR d (blank 0 (inp p)) = (p.the.x0 + p.the.x1 + d * p.gme, 2 * p.wn * (p.the.x0 + p.the.x1 + d * p.gme) * p.he.x0,
        2 * p.wn * (p.the.x0 + p.the.x1 + d * p.gme) * p.he.x1) := by
      unfold ascatR; simp only [lit_eq, e2]; rfl
    rw [er] at hU
    have hw : 0 < p.wn := ha.wn
    have h0' : 0 < p.he.x0 := ha.he0
    have h1' : 0 < p.he.x1 := ha.he1
    have row : ∀ r : ℝ, r ≠ 0 → rowR 4 ((1.0 / r) ^ 2) = gainRow (705, 105) r := by
      intro r hr
      unfold rowR gainRow
      simp only [rowA, rowB]
      congr 2
      have e1 : (1.0 : ℝ) = 1 := by norm_num
      rw [e1]; field_simp; norm_num; ring
    unfold h0Bound at hU
    simp only at hU
    rw [row _ (by positivity), row _ (by positivity)] at hU
    exact hU
  · simp only
    unfold ascatFinalR
    have e3 : (301.0 : ℝ) = 301 := by norm_num
    have e4 : (40e3 : ℝ) = 40000 := by norm_num
    rw [e3, e4]; rfl

/-- A link over two low antennas, both scatter parameters 0.06 at 300 km. -/
noncomputable def lowIn : LrIn ℝ := ⟨⟨1, 1⟩, ⟨1, 1⟩, ⟨1, 1⟩, ⟨0, 0⟩, 1, 90, 301, 1e-7, ⟨2, 1⟩⟩

/-- **C32** (refuted) Both scatter parameters are below 0.2, yet the reported attenuation is below 1000 dB, so `lrprop`
treats the path as an ordinary scatter path. -/
theorem C32_refuted : ∃ (p q : PropSt ℝ) (d : ℝ), (ascatR d p).2.1 < 0.2 ∧ (ascatR d p).2.2 < 0.2 ∧ ascat d p = .ok q ∧
    q.ascat1 < 1000 := by
  obtain ⟨p, hp⟩ : ∃ p : PropSt ℝ, p = { blank 1 lowIn with hor := some ⟨⟨1, 1⟩, 2, 2, 0⟩, sprep := some ⟨0, 1, 0, -15⟩ } := ⟨_, rfl⟩
  have hR : ascatR 300000 p = (0.03, 0.06, 0.06) := by
    rw [hp]; unfold ascatR blank lowIn; norm_num
  have hb : h0Bound (ascatR 300000 p) ≤ 200 := by
    rw [hR]
    unfold h0Bound rowR
    simp only [rowA, rowB]
    have l1 := log_upper (y := (705.0 * (1.0 / 0.06) ^ 2 + 105.0) * (1.0 / 0.06) ^ 2 + 1.0) 1 26 (by norm_num) (by norm_num) (by norm_num)
    have l2 := log_upper (y := ((1 + 1.4142 / 0.06) * (1 + 1.4142 / 0.06)) ^ 2) 1 20 (by norm_num) (by norm_num) (by norm_num)
    generalize Real.log ((705.0 * (1.0 / 0.06) ^ 2 + 105.0) * (1.0 / 0.06) ^ 2 + 1.0) = A at *
    generalize Real.log (((1 + 1.4142 / 0.06) * (1 + 1.4142 / 0.06)) ^ 2) = B at *
    refine max_le ?_ ?_ <;> norm_num at * <;> linarith
  obtain ⟨h0, s', hc, _, _, _, _, _, hU⟩ := ascatC_ok (i := lowIn) (h := ⟨⟨1, 1⟩, 2, 2, 0⟩) (s := ⟨0, 1, 0, -15⟩) (a1 := p.ascat1) (d := 300000)
    (by constructor <;> simp only [lowIn] <;> norm_num) (by simp only [lowIn]; norm_num) (by simp only [lowIn]; norm_num) le_rfl (by norm_num) (by norm_num)
    (by norm_num)
  have hbl : ascatR 300000 (blank 0 lowIn) = ascatR 300000 p := by rw [hp]; rfl
  have he := ascat_eq (p := p) (h := ⟨⟨1, 1⟩, 2, 2, 0⟩) (s := ⟨0, 1, 0, -15⟩) (by rw [hp]) (by rw [hp]) 300000
  rw [show inp p = lowIn by rw [hp]; rfl, hc, ok_bind] at he
  refine ⟨p, _, 300000, by rw [hR]; norm_num, by rw [hR]; norm_num, he, ?_⟩
  simp only
  have hU : h0 ≤ 200 := by
    rw [hbl] at hU
    exact hU.trans (max_le hb (by norm_num))
  have hA : ahdR ((0 + 300000 * 1e-7) * 300000) = 133.4 + 0.332e-3 * ((0 + 300000 * 1e-7) * 300000) +
      -4.343 * Real.log ((0 + 300000 * 1e-7) * 300000) := by
    unfold ahdR; exact if_pos (by norm_num)
  unfold ascatFinalR
  simp only [lowIn]
  rw [hA]
  have l1 : 0 ≤ Real.log ((0 + 300000 * 1e-7) * 300000) := Real.log_nonneg (by norm_num)
  have l2 : Real.log (47.7 * 1 * (0 + 300000 * 1e-7) ^ 4) ≤ 0 := Real.log_nonpos (by norm_num) (by norm_num)
  generalize Real.log ((0 + 300000 * 1e-7) * 300000) = A at *
  generalize Real.log (47.7 * 1 * (0 + 300000 * 1e-7) ^ 4) = B at *
  rw [show (0.1 * (301 - 301.0) : ℝ) = 0 by norm_num, zero_mul]
  norm_num at *; linarith

/-- **C32** (what remains true) If the attenuation at the nearer sample point did reach 1000 dB, `lrprop` would fall back to
pure diffraction; and in the inadmissible case the frequency gain is not remembered. Full statement: inadmissible paths
report 1001 dB; false, see `C32_refuted`. -/
theorem C32_fallback_partial {p : PropSt ℝ} {h : Horizon ℝ} {l : DiffLine ℝ} {d5 a5 a6 : ℝ} (ha : 1000 ≤ a5) :
    ∃ c, scatCoef p h l d5 a5 a6 = .ok c ∧ ∀ dist, farAref l c dist = l.aed + l.emd * dist := by
  unfold scatCoef
  rw [if_neg (by norm_num; exact ha)]
  refine ⟨_, rfl, fun dist => ?_⟩
  unfold farAref
  split_ifs <;> rfl

/-- **C32** (what remains true) see above. -/
theorem C32_not_remembered_partial {d : ℝ} {p q : PropSt ℝ} {s : ScatPrep ℝ} (hs : p.sprep = some s)
    (h1 : (ascatR d p).2.1 < 0.2) (h2 : (ascatR d p).2.2 < 0.2) (hr : ascat d p = .ok q) : q.sprep = some s := by
  unfold ascat at hr
  rw [hs] at hr
  simp only [need, ok_bind] at hr
  by_cases c : 15.0 < s.h0s
  · rw [if_pos c] at hr
    obtain ⟨⟨h0, p'⟩, hp, hr⟩ := bind_eq_ok.1 hr
    rw [pure_ok, ok_inj, Prod.mk.injEq] at hp
    obtain ⟨a, ha, hr⟩ := bind_eq_ok.1 hr
    rw [pure_ok, ok_inj] at hr
    rw [← hr, ← hp.2]; exact hs
  · rw [if_neg c] at hr
    rw [if_pos (show (ascatR d p).2.1 < 0.2 ∧ (ascatR d p).2.2 < 0.2 from ⟨h1, h2⟩)] at hr
    obtain ⟨h0, hh0, hr⟩ := bind_eq_ok.1 hr
    rw [if_neg (not_not.2 (pyEq_real.2 rfl))] at hr
    obtain ⟨⟨h0, p'⟩, hp, hr⟩ := bind_eq_ok.1 hr
    rw [pure_ok, ok_inj, Prod.mk.injEq] at hp
    obtain ⟨a, ha, hr⟩ := bind_eq_ok.1 hr
    rw [pure_ok, ok_inj] at hr
    rw [← hr, ← hp.2]

end Itm.Props
