import Verif.Lemmas.LrCore

/-! Diffraction over the reals: success conditions and closed forms. -/

namespace Itm

theorem third_real : (third : ℝ) = 1 / 3 := by unfold third; norm_num

/-- Value of `aknfe`. -/
noncomputable def aknfeR (v2 : ℝ) : ℝ :=
  if v2 < 5.76 then
    (let w := if v2 ≤ 0 then 0.00001 else v2
     6.02 + 9.11 * Real.sqrt w - 1.27 * w)
  else 12.953 + 4.343 * Real.log v2

theorem aknfe_ok (v2 : ℝ) : aknfe v2 = .ok (aknfeR v2) := by
  unfold aknfe aknfeR
  simp only [lit_eq, zero_lit]
  by_cases h : v2 < 5.76
  · rw [if_pos h, if_pos h]
    have h0 : (0 : ℝ) ≤ if v2 ≤ 0 then 0.00001 else v2 := by
      split_ifs with h1
      · norm_num
      · exact (not_le.1 h1).le
    rw [mathSqrt_ok h0, ok_bind, pure_ok]
  · rw [if_neg h, if_neg h]
    have : 0 < v2 := by norm_num at h; linarith
    rw [npLog_ok this, ok_bind, pure_ok]

theorem fht_ok {x pk : ℝ} (hp : 0 < pk) : ∃ f, fht x pk = .ok f := by
  unfold fht
  simp only [lit_eq, npow_real, rexp]
  by_cases h : x < 200.0
  · rw [if_pos h, npLog_ok hp, ok_bind]
    split_ifs with h1 h2
    · have : 0 < x := by norm_num at h2; linarith
      rw [npLog_ok this]; exact ⟨_, rfl⟩
    · exact ⟨_, rfl⟩
    · rw [pyDiv_ok hp.ne']; exact ⟨_, rfl⟩
  · have : 0 < x := by norm_num at h; linarith
    rw [if_neg h, npLog_ok this, ok_bind]
    split_ifs <;> exact ⟨_, rfl⟩

theorem rpow_third_pos {x : ℝ} (h : 0 < x) : 0 < x ^ (third : ℝ) := Real.rpow_pos_of_pos h _

theorem pyPow_third {x : ℝ} (h : 0 ≤ x) : pyPow x (third : ℝ) = .ok (x ^ (third : ℝ)) :=
  pyPow_ok h (by rw [third_real]; intro h; linarith [h.2])

/-- The curvature radius of one terminal's horizon and the three quantities `wa`, `pk`, `q` derived from it. -/
noncomputable def termA (dl he : ℝ) : ℝ := 0.5 * dl ^ 2 / he
noncomputable def termWa (wn dl he : ℝ) : ℝ := (termA dl he * wn) ^ (third : ℝ)
noncomputable def termPk (wn qk dl he : ℝ) : ℝ := qk / termWa wn dl he
noncomputable def termQ (wn qk dl he : ℝ) : ℝ := (1.607 - termPk wn qk dl he) * 151.0 * termWa wn dl he * dl / termA dl he

theorem termA_pos {dl he : ℝ} (hd : 0 < dl) (hh : 0 < he) : 0 < termA dl he := by unfold termA; positivity

theorem termWa_pos {wn dl he : ℝ} (hw : 0 < wn) (hd : 0 < dl) (hh : 0 < he) : 0 < termWa wn dl he :=
  rpow_third_pos (mul_pos (termA_pos hd hh) hw)

theorem termPk_pos {wn qk dl he : ℝ} (hw : 0 < wn) (hq : 0 < qk) (hd : 0 < dl) (hh : 0 < he) : 0 < termPk wn qk dl he :=
  div_pos hq (termWa_pos hw hd hh)

theorem adiffTerm_eq {wn qk dl he : ℝ} (hw : 0 < wn) (hd : 0 < dl) (hh : 0 < he) :
    adiffTerm wn qk dl he = (do let f ← fht (termQ wn qk dl he) (termPk wn qk dl he); pure (termQ wn qk dl he, f)) := by
  have ha : 0 < termA dl he := termA_pos hd hh
  have hwa : 0 < termWa wn dl he := termWa_pos hw hd hh
  unfold adiffTerm
  simp only [lit_eq, npow_real]
  rw [pyDiv_ok hh.ne', ok_bind]
  change (do let wa ← pyPow (termA dl he * wn) third; _) = _
  rw [pyPow_third (mul_pos ha hw).le, ok_bind]
  change (do let pk ← qk /! termWa wn dl he; _) = _
  rw [pyDiv_ok hwa.ne', ok_bind]
  change (do let q ← (1.607 - termPk wn qk dl he) * 151.0 * termWa wn dl he * dl /! termA dl he; _) = _
  rw [pyDiv_ok ha.ne', ok_bind]
  rfl

/-- Admissible inputs of `lrprop`: everything positive, terrain irregularity nonnegative. -/
structure Adm (i : LrIn ℝ) : Prop where
  hg0 : 0 < i.hg.x0
  hg1 : 0 < i.hg.x1
  he0 : 0 < i.he.x0
  he1 : 0 < i.he.x1
  dl0 : 0 < i.dl.x0
  dl1 : 0 < i.dl.x1
  wn : 0 < i.wn
  gme : 0 < i.gme
  dh : 0 ≤ i.dh
  zre : 0 < i.zgnd.re

/-- The horizon quantities. -/
noncomputable def horR (i : LrIn ℝ) : Horizon ℝ :=
  { dls := ⟨Real.sqrt (2 * i.he.x0 / i.gme), Real.sqrt (2 * i.he.x1 / i.gme)⟩,
    dlsa := Real.sqrt (2 * i.he.x0 / i.gme) + Real.sqrt (2 * i.he.x1 / i.gme),
    dla := i.dl.x0 + i.dl.x1,
    tha := max (i.the.x0 + i.the.x1) (-(i.dl.x0 + i.dl.x1) * i.gme) }

theorem horC_ok {i : LrIn ℝ} (h0 : 0 ≤ i.he.x0) (h1 : 0 ≤ i.he.x1) (hg : 0 < i.gme) : horC i = .ok (horR i) := by
  unfold horC lrHorizon horR
  simp only [lit_eq, pyMax_real]
  rw [show (blank 0 i).he = i.he from rfl, show (blank 0 i).gme = i.gme from rfl, show (blank 0 i).dl = i.dl from rfl,
    show (blank 0 i).the = i.the from rfl]
  rw [pyDiv_ok hg.ne', ok_bind, mathSqrt_ok (by positivity), ok_bind, pyDiv_ok hg.ne', ok_bind, mathSqrt_ok (by positivity), ok_bind,
    pure_ok]
  norm_num

theorem horR_dlsa_pos {i : LrIn ℝ} (a : Adm i) : 0 < (horR i).dlsa := by
  have h0 := a.he0; have h1 := a.he1; have hg := a.gme
  unfold horR; positivity

theorem horR_dla_pos {i : LrIn ℝ} (a : Adm i) : 0 < (horR i).dla := add_pos a.dl0 a.dl1

theorem cxabs_real (z : Cx ℝ) : z.abs = Real.sqrt (z.re * z.re + z.im * z.im) := rfl

theorem cxabs_pos {z : Cx ℝ} (h : 0 < z.re) : 0 < z.abs := by
  rw [cxabs_real]; apply Real.sqrt_pos.2; nlinarith [mul_pos h h, mul_self_nonneg z.im]

/-- `q` of `adiff.py` 43 under the square root. -/
noncomputable def hgq (mdp : Int) (i : LrIn ℝ) : ℝ :=
  if mdp < 0 then i.hg.x0 * i.hg.x1 + 10.0 else i.hg.x0 * i.hg.x1

/-- terrain irregularity at a distance -/
noncomputable def dhAt (dh d : ℝ) : ℝ := (1.0 - 0.8 * Real.exp (-d / 50e3)) * dh

theorem dhAt_nonneg {dh d : ℝ} (h : 0 ≤ dh) (hd : 0 ≤ d) : 0 ≤ dhAt dh d := by
  unfold dhAt
  have : Real.exp (-d / 50e3) ≤ 1 := Real.exp_le_one_iff.2 (by rw [neg_div]; linarith [div_nonneg hd (by norm_num : (0:ℝ) ≤ 50e3)])
  generalize Real.exp (-d / 50e3) = E at *
  refine mul_nonneg ?_ h
  norm_num; linarith

/-- `σ_h(d)`: roughness of the terrain -/
noncomputable def sigmaH (q : ℝ) : ℝ := 0.78 * q * Real.exp (-((q / 16.0) ^ (0.25 : ℝ)))

theorem sigmaH_nonneg {q : ℝ} (h : 0 ≤ q) : 0 ≤ sigmaH q := by unfold sigmaH; positivity

/-- The clutter term `afo`. -/
noncomputable def afoR (i : LrIn ℝ) (h : Horizon ℝ) : ℝ :=
  min 15.0 (2.171 * Real.log (1.0 + 4.77e-4 * i.hg.x0 * i.hg.x1 * i.wn * sigmaH (dhAt i.dh h.dlsa)))

theorem afoR_range {i : LrIn ℝ} {h : Horizon ℝ} (a : Adm i) (hd : 0 ≤ h.dlsa) : 0 ≤ afoR i h ∧ afoR i h ≤ 15 := by
  have := sigmaH_nonneg (dhAt_nonneg a.dh hd)
  have h1 := a.hg0; have h2 := a.hg1; have h3 := a.wn
  have h4 : 0 ≤ 4.77e-4 * i.hg.x0 * i.hg.x1 * i.wn * sigmaH (dhAt i.dh h.dlsa) := by positivity
  unfold afoR
  constructor
  · refine le_min (by norm_num) (mul_nonneg (by norm_num) (Real.log_nonneg ?_))
    norm_num at *; linarith
  · exact (min_le_left _ _).trans (by norm_num)

theorem diffC_ok {mdp : Int} {i : LrIn ℝ} {h : Horizon ℝ} (a : Adm i) (hd : 0 ≤ h.dlsa) :
    ∃ f0 f1, fht (termQ i.wn (1.0 / i.zgnd.abs) i.dl.x0 i.he.x0) (termPk i.wn (1.0 / i.zgnd.abs) i.dl.x0 i.he.x0) = .ok f0 ∧
      fht (termQ i.wn (1.0 / i.zgnd.abs) i.dl.x1 i.he.x1) (termPk i.wn (1.0 / i.zgnd.abs) i.dl.x1 i.he.x1) = .ok f1 ∧
      diffC mdp i h = .ok { qk := 1.0 / i.zgnd.abs,
                            wd1 := Real.sqrt (1.0 + (i.he.x0 * i.he.x1 - i.hg.x0 * i.hg.x1) / hgq mdp i),
                            xd1 := h.dla + h.tha / i.gme, afo := afoR i h, aht := 20.0 + f0 + f1,
                            xht := 0.0 + termQ i.wn (1.0 / i.zgnd.abs) i.dl.x0 i.he.x0 + termQ i.wn (1.0 / i.zgnd.abs) i.dl.x1 i.he.x1 } := by
  have hz := cxabs_pos a.zre
  have hqk : 0 < 1.0 / i.zgnd.abs := by positivity
  obtain ⟨f0, hf0⟩ := fht_ok (x := termQ i.wn (1.0 / i.zgnd.abs) i.dl.x0 i.he.x0) (termPk_pos a.wn hqk a.dl0 a.he0)
  obtain ⟨f1, hf1⟩ := fht_ok (x := termQ i.wn (1.0 / i.zgnd.abs) i.dl.x1 i.he.x1) (termPk_pos a.wn hqk a.dl1 a.he1)
  refine ⟨f0, f1, hf0, hf1, ?_⟩
  have h1 := a.hg0; have h2 := a.hg1; have h3 := a.wn; have e0 := a.he0; have e1 := a.he1
  have hq : 0 < hgq mdp i := by unfold hgq; split_ifs <;> positivity
  have hq1 : 0 ≤ 1.0 + (i.he.x0 * i.he.x1 - i.hg.x0 * i.hg.x1) / hgq mdp i := by
    rw [show (1.0 : ℝ) = 1 by norm_num, ← sub_nonneg, sub_zero, ← div_self hq.ne', ← add_div]
    refine div_nonneg ?_ hq.le
    have : i.hg.x0 * i.hg.x1 ≤ hgq mdp i := by unfold hgq; split_ifs <;> norm_num
    nlinarith [mul_pos e0 e1]
  have hs := sigmaH_nonneg (dhAt_nonneg a.dh hd)
  have hdh := dhAt_nonneg a.dh hd
  have hp : pyPow (dhAt i.dh h.dlsa / 16.0) (0.25 : ℝ) = .ok ((dhAt i.dh h.dlsa / 16.0) ^ (0.25 : ℝ)) :=
    pyPow_ok (by positivity) (by intro h; exact absurd h.2 (by norm_num))
  have hl : 0 < 1.0 + 4.77e-4 * i.hg.x0 * i.hg.x1 * i.wn * sigmaH (dhAt i.dh h.dlsa) := by
    have : 0 ≤ 4.77e-4 * i.hg.x0 * i.hg.x1 * i.wn * sigmaH (dhAt i.dh h.dlsa) := by positivity
    norm_num at *; linarith
  unfold diffC adiffInit
  simp only [need, ok_bind, lit_eq, pyMin_real, rexp]
  change (do
    let r ← (do
      let x ← (i.he.x0 * i.he.x1 - i.hg.x0 * i.hg.x1) /! hgq mdp i
      let wd1 ← mathSqrt (1.0 + x)
      let y ← h.tha /! i.gme
      let pw ← pyPow (dhAt i.dh h.dlsa / 16.0) (0.25 : ℝ)
      let l ← npLog (1.0 + 4.77e-4 * i.hg.x0 * i.hg.x1 * i.wn * (0.78 * (dhAt i.dh h.dlsa) * Real.exp (-pw)))
      let qk ← (1.0 : ℝ) /! i.zgnd.abs
      let (q0, f0) ← adiffTerm i.wn qk i.dl.x0 i.he.x0
      let (q1, f1) ← adiffTerm i.wn qk i.dl.x1 i.he.x1
      pure ((0.0 : ℝ), { blank mdp i with hor := some h, diff := some ⟨qk, wd1, h.dla + y, min 15.0 (2.171 * l), 20.0 + f0 + f1, 0.0 + q0 + q1⟩ }))
    need r.2.diff "qk") = _
  rw [pyDiv_ok hq.ne', ok_bind, mathSqrt_ok hq1, ok_bind, pyDiv_ok a.gme.ne', ok_bind, hp, ok_bind]
  rw [show 0.78 * (dhAt i.dh h.dlsa) * Real.exp (-((dhAt i.dh h.dlsa / 16.0) ^ (0.25 : ℝ))) = sigmaH (dhAt i.dh h.dlsa) from rfl]
  rw [npLog_ok hl, ok_bind, pyDiv_ok hz.ne', ok_bind, adiffTerm_eq a.wn a.dl0 a.he0, hf0]
  simp only [ok_bind, pure_ok]
  rw [adiffTerm_eq a.wn a.dl1 a.he1, hf1]
  simp only [ok_bind, pure_ok, need]
  rfl

/-- `a`, `wa`, `pk`, `q` of `adiff` at distance `d` -/
noncomputable def pathA (i : LrIn ℝ) (h : Horizon ℝ) (d : ℝ) : ℝ := (d - h.dla) / (h.tha + d * i.gme)
noncomputable def pathWa (i : LrIn ℝ) (h : Horizon ℝ) (d : ℝ) : ℝ := (pathA i h d * i.wn) ^ (third : ℝ)
noncomputable def pathQ (i : LrIn ℝ) (h : Horizon ℝ) (c : DiffC ℝ) (d : ℝ) : ℝ :=
  (1.607 - c.qk / pathWa i h d) * 151.0 * pathWa i h d * (h.tha + d * i.gme) + c.xht

/-- Rounded-earth attenuation. -/
noncomputable def roundedR (i : LrIn ℝ) (h : Horizon ℝ) (c : DiffC ℝ) (d : ℝ) : ℝ :=
  0.05751 * pathQ i h c d - 4.343 * Real.log (pathQ i h c d) - c.aht

/-- Double knife-edge attenuation. -/
noncomputable def knifeR (i : LrIn ℝ) (h : Horizon ℝ) (d : ℝ) : ℝ :=
  aknfeR (0.0795775 * i.wn * (d - h.dla) * (h.tha + d * i.gme) ^ 2 * i.dl.x0 / (d - h.dla + i.dl.x0)) +
  aknfeR (0.0795775 * i.wn * (d - h.dla) * (h.tha + d * i.gme) ^ 2 * i.dl.x1 / (d - h.dla + i.dl.x1))

/-- Blending weight. -/
noncomputable def weightR (i : LrIn ℝ) (c : DiffC ℝ) (d : ℝ) : ℝ :=
  25.1 / (25.1 + Real.sqrt ((c.wd1 + c.xd1 / d) * min (dhAt i.dh d * i.wn) 6283.2))

theorem weightR_range (i : LrIn ℝ) (c : DiffC ℝ) (d : ℝ) : 0 < weightR i c d ∧ weightR i c d ≤ 1 := by
  unfold weightR
  have := Real.sqrt_nonneg ((c.wd1 + c.xd1 / d) * min (dhAt i.dh d * i.wn) 6283.2)
  generalize Real.sqrt _ = s at *
  have hp : (0:ℝ) < 25.1 + s := by norm_num at *; linarith
  exact ⟨div_pos (by norm_num) hp, (div_le_one hp).2 (by linarith)⟩

theorem adiffC_ok {mdp : Int} {i : LrIn ℝ} {h : Horizon ℝ} {c : DiffC ℝ} {d : ℝ} (a : Adm i) (hd : 0 < d)
    (hds : h.dla < d) (hth : 0 < h.tha + d * i.gme) (hq : 0 < pathQ i h c d)
    (hw : 0 ≤ c.wd1 + c.xd1 / d) :
    adiffC mdp i h c d = .ok (roundedR i h c d * weightR i c d + (1.0 - weightR i c d) * knifeR i h d + c.afo) := by
  have hds' : 0 < d - h.dla := by linarith
  have ha : 0 < pathA i h d := div_pos hds' hth
  have hwa : 0 < pathWa i h d := rpow_third_pos (mul_pos ha a.wn)
  have hdl0 := a.dl0; have hdl1 := a.dl1
  unfold adiffC adiff
  rw [if_neg (by rw [pyEq_real]; intro e; rw [e] at hd; exact absurd hd (by norm_num))]
  unfold adiffParts adiffWeight
  simp only [need, ok_bind, lit_eq, pyMin_real, rexp, npow_real, bind_assoc]
  change (do
    let x ← 0.0795775 * i.wn * (d - h.dla) * (h.tha + d * i.gme) ^ 2 * i.dl.x0 /! (d - h.dla + i.dl.x0)
    let k0 ← aknfe x
    let x ← 0.0795775 * i.wn * (d - h.dla) * (h.tha + d * i.gme) ^ 2 * i.dl.x1 /! (d - h.dla + i.dl.x1)
    let k1 ← aknfe x
    let a ← (d - h.dla) /! (h.tha + d * i.gme)
    let wa ← pyPow (a * i.wn) third
    let pk ← c.qk /! wa
    let l ← npLog ((1.607 - pk) * 151.0 * wa * (h.tha + d * i.gme) + c.xht)
    let y ← (pure (0.05751 * ((1.607 - pk) * 151.0 * wa * (h.tha + d * i.gme) + c.xht) - 4.343 * l - c.aht, k0 + k1) : Py (ℝ × ℝ))
    let z ← c.xd1 /! d
    let s ← mathSqrt ((c.wd1 + z) * min (dhAt i.dh d * i.wn) 6283.2)
    let wd ← (25.1 : ℝ) /! (25.1 + s)
    let r ← (pure (y.1 * wd + (1.0 - wd) * y.2 + c.afo, _) : Py (ℝ × PropSt ℝ))
    pure r.1) = _
  have hmin : 0 ≤ min (dhAt i.dh d * i.wn) 6283.2 :=
    le_min (mul_nonneg (dhAt_nonneg a.dh hd.le) a.wn.le) (by norm_num)
  rw [pyDiv_ok (by positivity), ok_bind, aknfe_ok, ok_bind, pyDiv_ok (by positivity), ok_bind, aknfe_ok, ok_bind,
    pyDiv_ok hth.ne', ok_bind]
  rw [show (d - h.dla) / (h.tha + d * i.gme) = pathA i h d from rfl, pyPow_third (mul_pos ha a.wn).le, ok_bind]
  rw [show (pathA i h d * i.wn) ^ (third : ℝ) = pathWa i h d from rfl, pyDiv_ok hwa.ne', ok_bind]
  rw [show (1.607 - c.qk / pathWa i h d) * 151.0 * pathWa i h d * (h.tha + d * i.gme) + c.xht = pathQ i h c d from rfl,
    npLog_ok hq, ok_bind, pure_ok, ok_bind, pyDiv_ok hd.ne', ok_bind, mathSqrt_ok (mul_nonneg hw hmin), ok_bind]
  rw [pyDiv_ok (by have := Real.sqrt_nonneg ((c.wd1 + c.xd1 / d) * min (dhAt i.dh d * i.wn) 6283.2); positivity), ok_bind]
  rfl

end Itm
