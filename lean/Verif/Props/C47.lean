import Verif.Lemmas.CxSqrt
import Verif.Lemmas.TwoPoint
import Verif.Props.C45
import Verif.Props.C29

/-! C47: the system parameters of the runners against `qlrps`. -/

namespace Itm.Props
open Itm Itm.Spec

section
variable {α : Type} [PyNum α]

/-- **C47** (point-to-point) The runner's own block computes what `qlrps` computes at elevation 0.
Full statement: this holds for every runner; false for the impedance of `area.py`, see `C47_refuted`. -/
theorem C47_p2p_partial (h0 : pyEq (0.0 : α) 0.0) {p s : PropSt α} {profile : List α} (h : p2pSetup p profile = .ok s) :
    qlrps p.fmhz 0.0 314.0 p.ipol 15.0 0.005 = .ok { wn := s.wn, gme := s.gme, ens := s.ens, zgnd := s.zgnd } := by
  obtain ⟨xi, zgnd, h1, rfl⟩ := p2pSetup_ok h
  unfold p2pSys at h1
  obtain ⟨xi', -, h1⟩ := bind_eq_ok.1 h1
  obtain ⟨zq, hz, h1⟩ := bind_eq_ok.1 h1
  unfold qlrps
  dsimp only at h1 ⊢
  rw [if_neg (not_not.2 h0), hz, ok_bind]
  by_cases hp : p.ipol ≠ 0
  · rw [if_pos hp] at h1 ⊢
    obtain ⟨z, hg, h1⟩ := bind_eq_ok.1 h1
    rw [pure_ok, ok_inj, Prod.mk.injEq] at h1
    obtain ⟨-, rfl⟩ := h1
    rw [hg]
    rfl
  · rw [if_neg hp, pure_ok, ok_bind, pure_ok, ok_inj, Prod.mk.injEq] at h1
    obtain ⟨-, rfl⟩ := h1
    rw [if_neg hp]
    rfl

/-- **C47** (campaign) Likewise, vertical polarization, 2488 MHz. -/
theorem C47_pimter_partial (h0 : pyEq (0.0 : α) 0.0) {p s : PropSt α} {terrain distance : List α} (h : pimterSetup p terrain distance = .ok s) :
    qlrps (2.488 * 1000.0) 0.0 314.0 1 15.0 0.005 = .ok { wn := s.wn, gme := s.gme, ens := s.ens, zgnd := s.zgnd } := by
  rw [pimterSetup_eq] at h
  obtain ⟨_, -, h⟩ := bind_eq_ok.1 h
  obtain ⟨_, -, h⟩ := bind_eq_ok.1 h
  obtain ⟨_, -, h⟩ := bind_eq_ok.1 h
  obtain ⟨z, hg, h⟩ := bind_eq_ok.1 h
  rw [pure_ok, ok_inj] at h
  unfold pimterGround at hg
  obtain ⟨zq, hz, hg⟩ := bind_eq_ok.1 hg
  unfold qlrps
  dsimp only
  rw [if_neg (not_not.2 h0), hz, ok_bind, if_pos (by decide), hg, ok_bind, ← h]
  rfl
end

/-- `cmath.sqrt` on a number with nonnegative imaginary part squares back. -/
theorem toC_sqrt_sq {w : Cx ℝ} (h : 0 ≤ w.im) : (Cx.sqrt w).toC ^ 2 = w.toC := by
  have habs : w.re ^ 2 ≤ w.abs ^ 2 ∧ w.abs ^ 2 = w.re ^ 2 + w.im ^ 2 ∧ 0 ≤ w.abs := by
    have : 0 ≤ w.re * w.re + w.im * w.im := by nlinarith [mul_self_nonneg w.re, mul_self_nonneg w.im]
    rw [cxabs_real, Real.sq_sqrt this]
    exact ⟨by nlinarith [mul_self_nonneg w.im], by ring, Real.sqrt_nonneg _⟩
  have hre := abs_le.1 (abs_le_of_sq_le_sq habs.1 habs.2.2)
  rw [cxsqrt_real]
  try dsimp only
  rw [if_neg (by rw [zero_lit]; exact not_lt.2 h)]
  simp only [rsqrt]
  have e2 : (2.0 : ℝ) = 2 := by norm_num
  rw [e2]
  have p1 : 0 ≤ (w.abs + w.re) / 2 := by linarith [hre.1]
  have p2 : 0 ≤ (w.abs - w.re) / 2 := by linarith [hre.2]
  have s1 := Real.sq_sqrt p1
  have s2 := Real.sq_sqrt p2
  have s12 : Real.sqrt ((w.abs + w.re) / 2) * Real.sqrt ((w.abs - w.re) / 2) = w.im / 2 := by
    rw [← Real.sqrt_mul p1, show (w.abs + w.re) / 2 * ((w.abs - w.re) / 2) = (w.im / 2) ^ 2 by nlinarith [habs.2.1], Real.sqrt_sq (by linarith)]
  unfold Cx.toC
  rw [pow_two]
  apply Complex.ext
  · rw [Complex.mul_re]; nlinarith
  · rw [Complex.mul_im]; linarith

theorem re_sqrt {w : Cx ℝ} {r : ℝ} (h : r ^ 2 ≤ w.re) : r ≤ (Cx.sqrt w).re := by
  rw [cxsqrt_real]
  try dsimp only
  simp only [rsqrt]
  have : w.re ≤ w.abs := by
    rw [cxabs_real]
    apply Real.le_sqrt_of_sq_le
    nlinarith [mul_self_nonneg w.im]
  apply Real.le_sqrt_of_sq_le
  norm_num
  linarith

/-- The two impedances of the area runner's ground, `√(εc - 1)` and what the script computes. -/
theorem impedance_gap {x : ℝ} (hx : 0 < x) :
    0 < ‖(Cx.sqrt (Cx.sub ⟨15.0, x⟩ ⟨1.0, 0.0⟩)).toC - (Real.sqrt 14 : ℂ)‖ ∧
      ‖(Cx.sqrt (Cx.sub ⟨15.0, x⟩ ⟨1.0, 0.0⟩)).toC - (Real.sqrt 14 : ℂ)‖ ≤ x / 7.48 := by
  obtain ⟨w, hw⟩ : ∃ w : Cx ℝ, w = Cx.sub ⟨15.0, x⟩ ⟨1.0, 0.0⟩ := ⟨_, rfl⟩
  rw [← hw]
  have wre : w.re = 14 := by rw [hw]; simp only [Cx.sub]; norm_num
  have wim : w.im = x := by rw [hw]; simp only [Cx.sub]; norm_num
  have hs := Real.sq_sqrt (show (0:ℝ) ≤ 14 by norm_num)
  have hs0 := Real.sqrt_nonneg 14
  have hs1 : 3.74 ≤ Real.sqrt 14 := Real.le_sqrt_of_sq_le (by norm_num)
  have sq := toC_sqrt_sq (w := w) (by rw [wim]; exact hx.le)
  have hre := re_sqrt (w := w) (by rw [hs, wre])
  obtain ⟨z, hz⟩ : ∃ z, z = (Cx.sqrt w).toC := ⟨_, rfl⟩
  have hzre : Real.sqrt 14 ≤ z.re := by rw [hz]; exact hre
  rw [← hz] at sq ⊢
  have fac : (z - (Real.sqrt 14 : ℂ)) * (z + (Real.sqrt 14 : ℂ)) = (x : ℂ) * Complex.I := by
    have e1 : (z - (Real.sqrt 14 : ℂ)) * (z + (Real.sqrt 14 : ℂ)) = z ^ 2 - ((Real.sqrt 14 ^ 2 : ℝ) : ℂ) := by push_cast; ring
    rw [e1, sq, hs]
    apply Complex.ext <;> simp [Cx.toC, wre, wim]
  have nf : ‖z - (Real.sqrt 14 : ℂ)‖ * ‖z + (Real.sqrt 14 : ℂ)‖ = x := by
    rw [← norm_mul, fac, norm_mul, Complex.norm_I, mul_one, Complex.norm_real, Real.norm_of_nonneg hx.le]
  have nl : 7.48 ≤ ‖z + (Real.sqrt 14 : ℂ)‖ := by
    have : (z + (Real.sqrt 14 : ℂ)).re ≤ ‖z + (Real.sqrt 14 : ℂ)‖ := Complex.re_le_norm _
    rw [Complex.add_re, Complex.ofReal_re] at this
    norm_num at hs1 ⊢
    linarith
  have n0 := norm_nonneg (z - (Real.sqrt 14 : ℂ))
  constructor
  · rcases n0.lt_or_eq with h | h
    · exact h
    · rw [← h, zero_mul] at nf; linarith
  · rw [le_div_iff₀ (by norm_num)]
    nlinarith

/-- The impedance of the area runner, as `qlrps` computes it and as the script does. -/
theorem area_ground {fmhz : ℝ} (hf : 0 < fmhz) (ipol : Int) :
    ∃ z r, areaSys fmhz ipol = .ok z ∧
      qlrps fmhz 0.0 301.0 ipol 15.0 0.001 = .ok { wn := fmhz / 47.7, gme := effCurvature 157e-9 301.0, ens := 301.0, zgnd := r } ∧
      0 < ‖r.toC - z.toC‖ ∧ ‖r.toC - z.toC‖ ≤ 2.41 / fmhz := by
  have hw : fmhz / 47.7 ≠ 0 := by positivity
  obtain ⟨x, hx⟩ : ∃ x, x = 376.62 * 0.001 / (fmhz / 47.7) := ⟨_, rfl⟩
  have hx0 : 0 < x := by rw [hx]; positivity
  have hx1 : x / 7.48 ≤ 2.41 / fmhz := by
    rw [hx, div_div_eq_mul_div, div_div, div_le_div_iff₀ (by positivity) hf]
    nlinarith
  have hq : groundZq (15.0:ℝ) 0.001 (fmhz / 47.7) = .ok ⟨15.0, x⟩ := by
    unfold groundZq
    rw [pyDiv_ok hw, ok_bind, pure_ok, hx]
  have hr : mathSqrt ((15.0:ℝ) - 1.0) = .ok (Real.sqrt 14) := by
    rw [mathSqrt_ok (by norm_num)]
    norm_num
  have h0 : pyEq (0.0:ℝ) 0.0 := ⟨le_refl _, le_refl _⟩
  obtain ⟨g1, g2⟩ := impedance_gap hx0
  unfold areaSys qlrps
  dsimp only
  rw [if_neg (not_not.2 h0), hq, ok_bind, ok_bind, hr, ok_bind]
  obtain ⟨z1, hz1⟩ : ∃ z1, z1 = Cx.sqrt (Cx.sub ⟨15.0, x⟩ ⟨1.0, 0.0⟩) := ⟨_, rfl⟩
  rw [← hz1] at g1 g2 ⊢
  by_cases hp : ipol ≠ 0
  · have hN : (⟨15.0, x⟩ : Cx ℝ).normSq ≠ 0 := by
      rw [normSq_real]; norm_num; nlinarith [mul_self_nonneg x]
    obtain ⟨r1, e1, -⟩ := cxdiv_ok (z := ⟨Real.sqrt 14, 0.0⟩) hN
    obtain ⟨r2, e2, -⟩ := cxdiv_ok (z := z1) hN
    rw [if_pos hp, if_pos hp, e1, e2, ok_bind, pure_ok]
    refine ⟨r1, r2, rfl, rfl, ?_⟩
    rw [toC_div e1, toC_div e2, toC_real, ← sub_div, norm_div]
    have nq : 15 ≤ ‖Cx.toC ⟨15.0, x⟩‖ := by
      have := Complex.re_le_norm (Cx.toC ⟨15.0, x⟩)
      refine le_trans ?_ this
      simp only [Cx.toC]; norm_num
    refine ⟨div_pos g1 (by linarith), ?_⟩
    rw [div_le_iff₀ (by linarith)]
    have : 0 ≤ 2.41 / fmhz := by positivity
    nlinarith
  · rw [if_neg hp, if_neg hp, pure_ok, pure_ok, ok_bind]
    refine ⟨_, _, rfl, rfl, ?_⟩
    rw [toC_real]
    exact ⟨g1, g2.trans hx1⟩

/-- **C47** (refuted) For every positive frequency and either polarization the impedance the area runner uses differs from the one
`qlrps` returns for the same constants: `area.py` 163 takes the square root of the real part only. -/
theorem C47_refuted {p s : PropSt ℝ} (hf : 0 < p.fmhz) (h : areaSetup p = .ok s) :
    ∃ r, qlrps p.fmhz 0.0 301.0 p.ipol 15.0 0.001 = .ok r ∧ r.zgnd ≠ s.zgnd := by
  obtain ⟨z, r, e1, e2, e3, -⟩ := area_ground hf p.ipol
  rw [areaSetup_eq, e1, ok_bind, pure_ok, ok_inj] at h
  refine ⟨_, e2, ?_⟩
  rw [← h]
  rintro rfl
  simp at e3

/-- **C47** (area) The other three values are those of `qlrps`, and the impedance is within `2.41 / fmhz` of it.
Full statement: the impedances are equal; false, see `C47_refuted`. -/
theorem C47_area_partial {p s : PropSt ℝ} (hf : 0 < p.fmhz) (h : areaSetup p = .ok s) :
    ∃ r, qlrps p.fmhz 0.0 301.0 p.ipol 15.0 0.001 = .ok { wn := s.wn, gme := s.gme, ens := s.ens, zgnd := r } ∧
      ‖r.toC - s.zgnd.toC‖ ≤ 2.41 / p.fmhz := by
  obtain ⟨z, r, e1, e2, -, e3⟩ := area_ground hf p.ipol
  rw [areaSetup_eq, e1, ok_bind, pure_ok, ok_inj] at h
  rw [← h]
  exact ⟨r, e2, e3⟩

/-- The three set-ups succeed, e.g. at 573.3 MHz with vertical polarization. -/
example : (∃ s, p2pSetup levelLink [0, 0] = .ok s) ∧ (∃ s : PropSt ℝ, pimterSetup smooth [0, 0] [0, 200000] = .ok s) ∧
    (∃ s, areaSetup areaLink = .ok s) ∧ 0 < areaLink.fmhz := by
  refine ⟨?_, ?_, ?_, ?_⟩
  · obtain ⟨s, _, h, _⟩ := level_prep levelLink_path 0
    exact ⟨s, h⟩
  · obtain ⟨rows, h⟩ := pimter_run (D := 200000) (by norm_num) (by norm_num) 0 [0, 0] smooth 50 50
    unfold runItmlogicPimterAt at h
    obtain ⟨_, -, h⟩ := bind_eq_ok.1 h
    obtain ⟨_, -, h⟩ := bind_eq_ok.1 h
    obtain ⟨s, hs, -⟩ := bind_eq_ok.1 h
    exact ⟨s, hs⟩
  · obtain ⟨s, _, h, _⟩ := area_prep areaLink_level.1 ⟨2, 2⟩
    exact ⟨s, h⟩
  · have := areaLink_level.1.fmhz
    norm_num at this; linarith

end Itm.Props
