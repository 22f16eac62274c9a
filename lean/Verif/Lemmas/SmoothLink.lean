import Verif.Spec.Answered
import Verif.Lemmas.SmoothSight

/-! The diffraction line of a link over smooth earth, in closed form. -/

namespace Itm.Spec

/-- No terrain irregularity, both horizons where the smooth earth puts them. -/
structure SmoothLink (L : Link) : Prop where
  he0 : 0 < L.he₀
  he1 : 0 < L.he₁
  g : 0 < L.gme
  wn : 0 < L.wn
  z : 0 < ‖L.z‖
  dh : L.dh = 0
  dl0 : L.dl₀ = √(2 * L.he₀ / L.gme)
  dl1 : L.dl₁ = √(2 * L.he₁ / L.gme)
  the0 : L.the₀ = -(L.gme * L.dl₀)
  the1 : L.the₁ = -(L.gme * L.dl₁)

namespace SmoothLink
variable {L : Link} (h : SmoothLink L)
include h

theorem dlsa : L.dlsa = L.dla := by
  unfold Link.dlsa Link.dla smoothHorizon
  rw [h.dl0, h.dl1]

theorem dl0_pos : 0 < L.dl₀ := by
  have := h.he0; have := h.g
  rw [h.dl0]; positivity
theorem dl1_pos : 0 < L.dl₁ := by
  have := h.he1; have := h.g
  rw [h.dl1]; positivity
theorem dla_pos : 0 < L.dla := add_pos h.dl0_pos h.dl1_pos

theorem sq0 : L.dl₀ ^ 2 = 2 * L.he₀ / L.gme := by
  have := h.he0; have := h.g
  rw [h.dl0, Real.sq_sqrt (by positivity)]
theorem sq1 : L.dl₁ ^ 2 = 2 * L.he₁ / L.gme := by
  have := h.he1; have := h.g
  rw [h.dl1, Real.sq_sqrt (by positivity)]

theorem angle (d : ℝ) : L.scatterAngle d = (d - L.dla) * L.gme := by
  unfold Link.scatterAngle Link.dla
  rw [h.the0, h.the1]; ring

theorem tha : L.tha = -(L.dla * L.gme) := by
  unfold Link.tha
  rw [h.the0, h.the1, max_eq_right] <;> unfold Link.dla
  · ring
  · apply le_of_eq; ring

theorem bend (d : ℝ) : L.tha + d * L.gme = (d - L.dla) * L.gme := by rw [h.tha]; ring

omit h in
/-- Cube root of the wave number times the earth's radius. -/
noncomputable def K (L : Link) : ℝ := (L.wn / L.gme) ^ (1 / 3 : ℝ)
omit h in
/-- Slope of the rounded-earth argument, times the scale of diffraction distances. -/
noncomputable def b (L : Link) : ℝ := (1.607 - L.zInv / K L) * 151

theorem K_pos : 0 < K L := by
  have := h.wn; have := h.g
  unfold K; positivity
theorem K_cube : K L ^ 3 = L.wn / L.gme := by
  have := h.wn; have := h.g
  unfold K
  rw [← Real.rpow_natCast, ← Real.rpow_mul (by positivity)]
  norm_num
theorem Kg_pos : 0 < K L * L.gme := mul_pos h.K_pos h.g
theorem Kg_cube : (K L * L.gme) ^ 3 = L.wn * L.gme ^ 2 := by
  rw [mul_pow, h.K_cube]; have hg := h.g.ne'; field_simp
theorem xae : L.xae = (K L * L.gme)⁻¹ := by
  unfold Link.xae
  rw [← h.Kg_cube, ← Real.rpow_natCast, ← Real.rpow_mul h.Kg_pos.le]
  norm_num [Real.rpow_neg_one]
theorem xae_pos : 0 < L.xae := by rw [h.xae]; exact inv_pos.2 h.Kg_pos
theorem xae_mul : L.xae * (K L * L.gme) = 1 := by rw [h.xae]; exact inv_mul_cancel₀ h.Kg_pos.ne'

theorem term_arg {dl he : ℝ} (hd : 0 < dl) (he0 : 0 < he) (e : dl ^ 2 = 2 * he / L.gme) :
    terminalArg L.wn L.zInv dl he = b L * (K L * L.gme) * dl ∧ terminalK L.wn L.zInv dl he = L.zInv / K L := by
  have hg := h.g.ne'
  have e1 : dl / (2 * he / dl) * L.wn = L.wn / L.gme := by
    rw [show dl / (2 * he / dl) * L.wn = dl ^ 2 / (2 * he) * L.wn by field_simp, e]; field_simp
  have e2 : dl ^ 2 / (2 * he) * L.wn = L.wn / L.gme := by rw [e]; field_simp
  have e3 : 2 * he / dl = L.gme * dl := by
    rw [div_eq_iff hd.ne', mul_assoc, ← sq, e]; field_simp
  unfold terminalArg terminalK roundedArg
  rw [e1, e2, e3]
  refine ⟨?_, rfl⟩
  rw [show ((L.wn / L.gme) ^ (1 / 3 : ℝ)) = K L from rfl]
  unfold b; ring

/-- The rounded-earth argument over a path. -/
theorem path_arg {d : ℝ} (hd : L.dla < d) :
    roundedArg L.wn (d - L.dla) (L.tha + d * L.gme) L.zInv L.xht = b L * (K L * L.gme) * d := by
  have hg := h.g.ne'
  have e1 : (d - L.dla) / ((d - L.dla) * L.gme) * L.wn = L.wn / L.gme := by
    have : d - L.dla ≠ 0 := by linarith
    field_simp
  unfold roundedArg Link.xht
  rw [h.bend, e1, (h.term_arg h.dl0_pos h.he0 h.sq0).1, (h.term_arg h.dl1_pos h.he1 h.sq1).1,
    show ((L.wn / L.gme) ^ (1 / 3 : ℝ)) = K L from rfl]
  unfold b Link.dla; ring

theorem diffraction {d : ℝ} (hd : L.dla < d) :
    L.diffraction d = 0.05751 * (b L * (K L * L.gme) * d) - 4.343 * Real.log (b L * (K L * L.gme) * d) - L.aht := by
  unfold Link.diffraction
  have hw : diffWeight L.wn L.dh L.wd1 L.xd1 d = 1 := by
    unfold diffWeight irregularity
    rw [h.dh, mul_zero, zero_mul, min_eq_left (by norm_num), mul_zero, Real.sqrt_zero]; norm_num
  have hc : clutter L.wn L.dh L.hg₀ L.hg₁ L.dlsa = 0 := by
    unfold clutter terrainSigma irregularity
    rw [h.dh]; norm_num
  dsimp only
  rw [hw, hc]
  unfold roundedEarth
  rw [h.path_arg hd]; ring

theorem d3 : L.d3 = L.dla + 1.3787 * L.xae := by
  unfold Link.d3
  rw [h.dlsa, max_eq_right]
  have := h.xae_pos
  norm_num; linarith

/-- The arguments at the two distances of the diffraction line. -/
theorem arg3 : b L * (K L * L.gme) * L.d3 = 1.3787 * b L + b L * (K L * L.gme) * L.dla := by
  rw [h.d3]
  calc _ = 1.3787 * b L * (L.xae * (K L * L.gme)) + b L * (K L * L.gme) * L.dla := by ring
    _ = _ := by rw [h.xae_mul, mul_one]
theorem arg4 : b L * (K L * L.gme) * L.d4 = 4.1361 * b L + b L * (K L * L.gme) * L.dla := by
  unfold Link.d4
  rw [h.d3]
  calc _ = 4.1361 * b L * (L.xae * (K L * L.gme)) + b L * (K L * L.gme) * L.dla := by norm_num; ring
    _ = _ := by rw [h.xae_mul, mul_one]

/-- The slope, from below. -/
theorem md_ge {B : ℝ} (hB : 0 < B) (hb : B ≤ b L) : (0.15857 * B - 4.818) / 2.7574 * (K L * L.gme) ≤ L.md := by
  have hx := h.xae_pos
  have hG := h.Kg_pos
  have l3 : L.dla < L.d3 := by rw [h.d3]; norm_num; linarith
  have l4 : L.dla < L.d4 := by unfold Link.d4; norm_num; linarith
  have hX : 0 ≤ b L * (K L * L.gme) * L.dla := by
    have := h.dla_pos
    have : 0 < b L := lt_of_lt_of_le hB hb
    positivity
  unfold Link.md
  rw [h.diffraction l3, h.diffraction l4, h.arg3, h.arg4, show L.d4 - L.d3 = 2.7574 * L.xae by unfold Link.d4; ring]
  rw [le_div_iff₀ (by positivity)]
  have e : (0.15857 * B - 4.818) / 2.7574 * (K L * L.gme) * (2.7574 * L.xae) = 0.15857 * B - 4.818 := by
    calc _ = (0.15857 * B - 4.818) / 2.7574 * 2.7574 * (L.xae * (K L * L.gme)) := by ring
      _ = _ := by rw [h.xae_mul, mul_one, div_mul_cancel₀ _ (by norm_num)]
  rw [e]
  generalize b L * (K L * L.gme) * L.dla = X at *
  have hb0 : 0 < b L := lt_of_lt_of_le hB hb
  have p3 : 0 < 1.3787 * b L + X := by positivity
  have p4 : 0 < 4.1361 * b L + X := by positivity
  have hlog : Real.log (4.1361 * b L + X) - Real.log (1.3787 * b L + X) ≤ Real.log 3 := by
    rw [← Real.log_div p4.ne' p3.ne']
    refine Real.log_le_log (div_pos p4 p3) ?_
    rw [div_le_iff₀ p3]; norm_num; linarith
  have l3 := Itm.log_upper (y := 3) 5 8 (by norm_num) (by norm_num) (by norm_num)
  generalize Real.log (4.1361 * b L + X) = L4 at *
  generalize Real.log (1.3787 * b L + X) = L3 at *
  norm_num at *
  linarith

/-- The diffraction line is positive at the horizon. -/
theorem line_pos (hb : 0 < b L) (hb2 : 1.3787 * b L ≤ 335) (hk : L.zInv / K L ≤ 0.05) : 0 < L.diffLine L.dlsa := by
  have hx := h.xae_pos
  have hG := h.Kg_pos
  have l3 : L.dla < L.d3 := by rw [h.d3]; norm_num; linarith
  have l4 : L.dla < L.d4 := by unfold Link.d4; norm_num; linarith
  have hz := h.z
  have hK := h.K_pos
  have hk0 : 0 < L.zInv / K L := by unfold Link.zInv; positivity
  have hd0 := h.dl0_pos; have hd1 := h.dl1_pos
  have X0 : 0 < b L * (K L * L.gme) * L.dl₀ := by positivity
  have X1 : 0 < b L * (K L * L.gme) * L.dl₁ := by positivity
  have main := Itm.horizon_pos X0 X1 hk0 hk hk0 hk (c := 1.3787 * b L) (by positivity) hb2
  obtain ⟨q0, k0⟩ := h.term_arg hd0 h.he0 h.sq0
  obtain ⟨q1, k1⟩ := h.term_arg hd1 h.he1 h.sq1
  have ea : L.aht = 20 + heightGain (b L * (K L * L.gme) * L.dl₀) (L.zInv / K L) + heightGain (b L * (K L * L.gme) * L.dl₁) (L.zInv / K L) := by
    unfold Link.aht
    rw [q0, k0, q1, k1]
  rw [← ea] at main
  have eX : b L * (K L * L.gme) * L.dla = b L * (K L * L.gme) * L.dl₀ + b L * (K L * L.gme) * L.dl₁ := by unfold Link.dla; ring
  unfold Link.diffLine Link.md
  rw [h.dlsa, show L.dla - L.d3 = -(1.3787 * L.xae) by rw [h.d3]; ring, show L.d4 - L.d3 = 2.7574 * L.xae by unfold Link.d4; ring]
  have e : ∀ y : ℝ, y / (2.7574 * L.xae) * -(1.3787 * L.xae) = -(y / 2) := by
    intro y
    rw [div_mul_eq_mul_div, div_eq_iff (by positivity)]; norm_num; ring
  rw [e, h.diffraction l3, h.diffraction l4, h.arg3, h.arg4, eX]
  generalize b L * (K L * L.gme) * L.dl₀ = X at *
  generalize b L * (K L * L.gme) * L.dl₁ = Y at *
  have hlog : Real.log (1.3787 * b L + (X + Y)) ≤ Real.log (4.1361 * b L + (X + Y)) := Real.log_le_log (by positivity) (by norm_num; linarith)
  generalize Real.log (4.1361 * b L + (X + Y)) = L4 at *
  generalize Real.log (1.3787 * b L + (X + Y)) = L3 at *
  norm_num at *; linarith

/-- The line-of-sight fit does not divide by zero. -/
theorem no_clash (hp : 0 < L.diffLine L.dlsa) (hm : 0 < L.md) : ¬ L.FitClash := by
  have hd := h.dla_pos
  have e0 : ∀ d, L.diffLine d = L.diffLine 0 + L.md * d := by intro d; unfold Link.diffLine; ring
  have h2 := Itm.Props.C24_fit_below_horizon (k := L.wn) (h₀ := L.he₀) (h₁ := L.he₁) (dla := L.dla) (dlsa := L.dlsa) (aed := L.diffLine 0)
    (emd := L.md) (by rw [h.dlsa]; linarith) hd.le hm (by rw [← e0]; exact hp)
  rintro (c | c | c)
  · exact hm.ne' c.2
  · exact h2.ne c
  · exact (c.1.trans h2).ne c.2

end SmoothLink
end Itm.Spec
