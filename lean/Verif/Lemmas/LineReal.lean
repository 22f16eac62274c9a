import Verif.Lemmas.DiffReal

/-! The diffraction line and the whole set-up over the reals. -/

namespace Itm

noncomputable def xaeR (i : LrIn ℝ) : ℝ := (i.wn * i.gme ^ 2) ^ (-(third : ℝ))

theorem xaeR_pos {i : LrIn ℝ} (a : Adm i) : 0 < xaeR i :=
  Real.rpow_pos_of_pos (mul_pos a.wn (pow_pos a.gme 2)) _

noncomputable def d3R (i : LrIn ℝ) (h : Horizon ℝ) : ℝ := max h.dlsa (1.3787 * xaeR i + h.dla)
noncomputable def d4R (i : LrIn ℝ) (h : Horizon ℝ) : ℝ := d3R i h + 2.7574 * xaeR i

/-- Diffraction attenuation at a distance. -/
noncomputable def adiffR (i : LrIn ℝ) (h : Horizon ℝ) (c : DiffC ℝ) (d : ℝ) : ℝ :=
  roundedR i h c d * weightR i c d + (1.0 - weightR i c d) * knifeR i h d + c.afo

noncomputable def emdR (i : LrIn ℝ) (h : Horizon ℝ) (c : DiffC ℝ) : ℝ :=
  (adiffR i h c (d4R i h) - adiffR i h c (d3R i h)) / (d4R i h - d3R i h)

noncomputable def lineR (i : LrIn ℝ) (h : Horizon ℝ) (c : DiffC ℝ) : DiffLine ℝ :=
  { dmin := |i.he.x0 - i.he.x1| / 0.2, xae := xaeR i, emd := emdR i h c,
    aed := adiffR i h c (d3R i h) - emdR i h c * d3R i h,
    wis := 0.021 / (0.021 + i.wn * i.dh / max 10e3 h.dlsa) }

theorem tha_pos {i : LrIn ℝ} (a : Adm i) {d : ℝ} (hd : (horR i).dla < d) : 0 < (horR i).tha + d * i.gme := by
  have h1 : -(i.dl.x0 + i.dl.x1) * i.gme ≤ (horR i).tha := le_max_right _ _
  have h2 : i.dl.x0 + i.dl.x1 < d := hd
  nlinarith [a.gme]

theorem d3R_gt {i : LrIn ℝ} (a : Adm i) (h : Horizon ℝ) : h.dla < d3R i h := by
  have := xaeR_pos a
  refine lt_of_lt_of_le ?_ (le_max_right _ _)
  linarith [mul_pos (by norm_num : (0:ℝ) < 1.3787) this]

theorem d4R_gt {i : LrIn ℝ} (a : Adm i) (h : Horizon ℝ) : d3R i h < d4R i h := by
  have := xaeR_pos a
  unfold d4R
  linarith [mul_pos (by norm_num : (0:ℝ) < 2.7574) this]

theorem lineC_ok {mdp : Int} {i : LrIn ℝ} {c : DiffC ℝ} (a : Adm i) (hw : 0 ≤ c.wd1) (hx : 0 ≤ c.xd1)
    (h3 : 0 < pathQ i (horR i) c (d3R i (horR i))) (h4 : 0 < pathQ i (horR i) c (d4R i (horR i))) :
    lineC mdp i (horR i) c = .ok (lineR i (horR i) c) := by
  have g3 := d3R_gt a (horR i)
  have g4 := d4R_gt a (horR i)
  have hla := horR_dla_pos a
  have p3 : 0 < d3R i (horR i) := hla.trans g3
  have p4 : 0 < d4R i (horR i) := p3.trans g4
  have e3 := adiffC_ok (mdp := mdp) (c := c) a p3 g3 (tha_pos a g3) h3 (by positivity)
  have e4 := adiffC_ok (mdp := mdp) (c := c) a p4 (g3.trans g4) (tha_pos a (g3.trans g4)) h4 (by positivity)
  unfold lineC lrLineWith
  simp only [lit_eq, npow_real, pyMax_real, rabs]
  rw [pyPow_ok (mul_pos a.wn (pow_pos a.gme 2)).le (fun e => absurd e.1 (mul_pos a.wn (pow_pos a.gme 2)).ne'), ok_bind]
  change (do
    let a3 ← adiffC mdp i (horR i) c (d3R i (horR i))
    let a4 ← adiffC mdp i (horR i) c (d4R i (horR i))
    let emd ← (a4 - a3) /! (d4R i (horR i) - d3R i (horR i))
    let wis ← (0.021 : ℝ) /! (0.021 + i.wn * i.dh / max 10e3 (horR i).dlsa)
    pure ({ dmin := |i.he.x0 - i.he.x1| / 0.2, xae := xaeR i, emd := emd, aed := a3 - emd * d3R i (horR i), wis := wis } : DiffLine ℝ)) = _
  have hmx : (0:ℝ) < max 10e3 (horR i).dlsa := lt_of_lt_of_le (by norm_num) (le_max_left _ _)
  have hwn := a.wn; have hdh := a.dh
  rw [e3, ok_bind, e4, ok_bind, pyDiv_ok (by linarith), ok_bind, pyDiv_ok (by positivity), ok_bind]
  rfl

/-- The diffraction constants. -/
noncomputable def diffR (mdp : Int) (i : LrIn ℝ) (f0 f1 : ℝ) : DiffC ℝ :=
  { qk := 1.0 / i.zgnd.abs, wd1 := Real.sqrt (1.0 + (i.he.x0 * i.he.x1 - i.hg.x0 * i.hg.x1) / hgq mdp i),
    xd1 := (horR i).dla + (horR i).tha / i.gme, afo := afoR i (horR i), aht := 20.0 + f0 + f1,
    xht := 0.0 + termQ i.wn (1.0 / i.zgnd.abs) i.dl.x0 i.he.x0 + termQ i.wn (1.0 / i.zgnd.abs) i.dl.x1 i.he.x1 }

theorem xd1_nonneg {i : LrIn ℝ} (a : Adm i) : 0 ≤ (horR i).dla + (horR i).tha / i.gme := by
  have h1 : -(i.dl.x0 + i.dl.x1) * i.gme ≤ (horR i).tha := le_max_right _ _
  have h2 : -(i.dl.x0 + i.dl.x1) ≤ (horR i).tha / i.gme := (le_div_iff₀ a.gme).2 h1
  have : (horR i).dla = i.dl.x0 + i.dl.x1 := rfl
  linarith

/-- The set-up succeeds on admissible inputs when the three ground parameters `1/(|z|·wa)` (of the two terminals, through
`xht`, and of the path) leave the rounded-earth argument positive. -/
theorem setupC_ok {mdp : Int} {i : LrIn ℝ} (a : Adm i)
    (h3 : ∀ f0 f1, 0 < pathQ i (horR i) (diffR mdp i f0 f1) (d3R i (horR i)))
    (h4 : ∀ f0 f1, 0 < pathQ i (horR i) (diffR mdp i f0 f1) (d4R i (horR i))) :
    ∃ f0 f1, fht (termQ i.wn (1.0 / i.zgnd.abs) i.dl.x0 i.he.x0) (termPk i.wn (1.0 / i.zgnd.abs) i.dl.x0 i.he.x0) = .ok f0 ∧
      fht (termQ i.wn (1.0 / i.zgnd.abs) i.dl.x1 i.he.x1) (termPk i.wn (1.0 / i.zgnd.abs) i.dl.x1 i.he.x1) = .ok f1 ∧
      setupC mdp i = .ok ⟨horR i, diffR mdp i f0 f1, lineR i (horR i) (diffR mdp i f0 f1)⟩ := by
  obtain ⟨f0, f1, hf0, hf1, hc⟩ := diffC_ok (mdp := mdp) (h := horR i) a (horR_dlsa_pos a).le
  refine ⟨f0, f1, hf0, hf1, ?_⟩
  unfold setupC
  rw [horC_ok a.he0.le a.he1.le a.gme, ok_bind, hc, ok_bind]
  change (do let l ← lineC mdp i (horR i) (diffR mdp i f0 f1); _) = _
  rw [lineC_ok a (Real.sqrt_nonneg _) (xd1_nonneg a) (h3 f0 f1) (h4 f0 f1), ok_bind]
  rfl

/-- Sufficient: every `|z|·wa` is at least 1/1.607. -/
theorem pathQ_pos {i : LrIn ℝ} (a : Adm i) {c : DiffC ℝ} {d : ℝ} (hd : (horR i).dla < d) (hx : 0 ≤ c.xht)
    (hq : c.qk < 1.607 * pathWa i (horR i) d) : 0 < pathQ i (horR i) c d := by
  have hth := tha_pos a hd
  have hwa : 0 < pathWa i (horR i) d := rpow_third_pos (mul_pos (div_pos (by linarith) hth) a.wn)
  unfold pathQ
  have : c.qk / pathWa i (horR i) d < 1.607 := (div_lt_iff₀ hwa).2 hq
  have : 0 < (1.607 - c.qk / pathWa i (horR i) d) := by linarith
  positivity

theorem termQ_nonneg {wn qk dl he : ℝ} (hw : 0 < wn) (hd : 0 < dl) (hh : 0 < he) (hq : qk ≤ 1.607 * termWa wn dl he) :
    0 ≤ termQ wn qk dl he := by
  have h1 := termWa_pos hw hd hh
  have h2 := termA_pos hd hh
  have : termPk wn qk dl he ≤ 1.607 := (div_le_iff₀ h1).2 hq
  have : 0 ≤ 1.607 - termPk wn qk dl he := by linarith
  unfold termQ
  positivity

/-- The path's `wa` grows with distance, so the ground condition at the shortest diffraction distance suffices. -/
theorem pathA_mono {i : LrIn ℝ} (a : Adm i) {d d' : ℝ} (hd : (horR i).dla < d) (hdd : d ≤ d') :
    pathA i (horR i) d ≤ pathA i (horR i) d' := by
  have h1 := tha_pos a hd
  have h2 := tha_pos a (lt_of_lt_of_le hd hdd)
  have h0 : 0 ≤ (horR i).tha + (horR i).dla * i.gme := by
    have h1 : -(i.dl.x0 + i.dl.x1) * i.gme ≤ (horR i).tha := le_max_right _ _
    have : (horR i).dla = i.dl.x0 + i.dl.x1 := rfl
    rw [this]; linarith
  unfold pathA
  rw [div_le_div_iff₀ h1 h2]
  nlinarith [a.gme, mul_nonneg h0 (sub_nonneg.2 hdd)]

theorem pathWa_mono {i : LrIn ℝ} (a : Adm i) {d d' : ℝ} (hd : (horR i).dla < d) (hdd : d ≤ d') :
    pathWa i (horR i) d ≤ pathWa i (horR i) d' := by
  have hA : 0 < pathA i (horR i) d := div_pos (by linarith) (tha_pos a hd)
  exact Real.rpow_le_rpow (mul_pos hA a.wn).le (mul_le_mul_of_nonneg_right (pathA_mono a hd hdd) a.wn.le)
    (by rw [third_real]; norm_num)

/-- Ground admissibility: the Vogler parameter is below 1.607 at both terminals and on the path. -/
structure GroundAdm (i : LrIn ℝ) : Prop where
  t0 : 1 ≤ 1.607 * i.zgnd.abs * termWa i.wn i.dl.x0 i.he.x0
  t1 : 1 ≤ 1.607 * i.zgnd.abs * termWa i.wn i.dl.x1 i.he.x1
  path : 1 < 1.607 * i.zgnd.abs * pathWa i (horR i) (1.3787 * xaeR i + (horR i).dla)

theorem setupC_total {mdp : Int} {i : LrIn ℝ} (a : Adm i) (g : GroundAdm i) :
    ∃ f0 f1, fht (termQ i.wn (1.0 / i.zgnd.abs) i.dl.x0 i.he.x0) (termPk i.wn (1.0 / i.zgnd.abs) i.dl.x0 i.he.x0) = .ok f0 ∧
      fht (termQ i.wn (1.0 / i.zgnd.abs) i.dl.x1 i.he.x1) (termPk i.wn (1.0 / i.zgnd.abs) i.dl.x1 i.he.x1) = .ok f1 ∧
      setupC mdp i = .ok ⟨horR i, diffR mdp i f0 f1, lineR i (horR i) (diffR mdp i f0 f1)⟩ := by
  have hz := cxabs_pos a.zre
  have key : ∀ {w : ℝ}, 1 ≤ 1.607 * i.zgnd.abs * w → 1.0 / i.zgnd.abs ≤ 1.607 * w := by
    intro w hw
    rw [div_le_iff₀ hz]; norm_num at *; linarith
  have q0 := termQ_nonneg a.wn a.dl0 a.he0 (key g.t0)
  have q1 := termQ_nonneg a.wn a.dl1 a.he1 (key g.t1)
  have hx : ∀ f0 f1, 0 ≤ (diffR mdp i f0 f1).xht := by
    intro f0 f1
    change 0 ≤ 0.0 + termQ _ _ _ _ + termQ _ _ _ _
    rw [zero_lit, zero_add]; exact add_nonneg q0 q1
  have hgt : (horR i).dla < 1.3787 * xaeR i + (horR i).dla := by
    linarith [mul_pos (by norm_num : (0:ℝ) < 1.3787) (xaeR_pos a)]
  have hp : ∀ d, 1.3787 * xaeR i + (horR i).dla ≤ d → 1.0 / i.zgnd.abs < 1.607 * pathWa i (horR i) d := by
    intro d hd
    have := pathWa_mono a hgt hd
    have h2 := g.path
    rw [div_lt_iff₀ hz]; norm_num at *; nlinarith
  have hd3 : 1.3787 * xaeR i + (horR i).dla ≤ d3R i (horR i) := le_max_right _ _
  refine setupC_ok a (fun f0 f1 => ?_) (fun f0 f1 => ?_)
  · exact pathQ_pos a (d3R_gt a _) (hx f0 f1) (hp _ hd3)
  · exact pathQ_pos a ((d3R_gt a _).trans (d4R_gt a _)) (hx f0 f1) (hp _ (hd3.trans (d4R_gt a _).le))

end Itm
