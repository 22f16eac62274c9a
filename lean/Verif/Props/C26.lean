import Verif.Lemmas.DiffReal
import Verif.Lemmas.LogBounds
import Verif.Lemmas.Witness
import Verif.Spec.Leaf

/-! C26: diffraction attenuation. C27: knife edge. C28: height gain. -/

namespace Itm
open Spec

theorem aknfe_spec (v2 : ℝ) : aknfe v2 = .ok (knifeEdge (clampV2 v2)) := by
  rw [aknfe_ok]
  unfold aknfeR knifeEdge clampV2
  congr 1
  by_cases h0 : v2 ≤ 0
  · have h1 : v2 < 5.76 := by norm_num; linarith
    rw [if_pos h1, if_pos h0]
    exact (if_pos (by norm_num)).symm
  · rw [if_neg h0]

theorem knifeEdge_low_mono {a b : ℝ} (h0 : 0 ≤ a) (hab : a ≤ b) (hb : b ≤ 5.76) :
    6.02 + 9.11 * Real.sqrt a - 1.27 * a ≤ 6.02 + 9.11 * Real.sqrt b - 1.27 * b := by
  have hs : Real.sqrt a ≤ Real.sqrt b := Real.sqrt_le_sqrt hab
  have hs0 := Real.sqrt_nonneg a
  have h24 : Real.sqrt b ≤ 2.4 := Real.sqrt_le_iff.2 ⟨by norm_num, by norm_num at *; linarith⟩
  have ea := Real.sq_sqrt h0
  have eb := Real.sq_sqrt (h0.trans hab)
  generalize Real.sqrt a = x at *
  generalize Real.sqrt b = y at *
  rw [← ea, ← eb]
  norm_num at *
  nlinarith

end Itm

namespace Itm.Props
open Itm Itm.Spec

/-! ### C27 -/

/-- **C27** `aknfe` never raises; its value is the knife-edge formula at the clamped argument. -/
theorem C27_total (v2 : ℝ) : aknfe v2 = .ok (knifeEdge (clampV2 v2)) := aknfe_spec v2

/-- **C27** At least 6.02 dB. -/
theorem C27_floor {v2 a : ℝ} (h : aknfe v2 = .ok a) : 6.02 ≤ a := by
  rw [aknfe_spec, ok_inj] at h
  rw [← h]
  have hc : 0 < clampV2 v2 := by unfold clampV2; split_ifs with c; · norm_num
                                 · exact not_le.1 c
  unfold knifeEdge
  split_ifs with c
  · have := knifeEdge_low_mono le_rfl hc.le c.le
    rw [Real.sqrt_zero] at this
    norm_num at *; linarith
  · have := Real.log_le_log (by norm_num) (not_lt.1 c)
    have := log_576.1
    generalize Real.log (clampV2 v2) = L at *
    generalize Real.log 5.76 = M at *
    norm_num at *; linarith

/-- **C27** (monotonicity, as far as it holds) Monotone on `(0, 5.76)` and on `[5.76, ∞)`; over all arguments a larger
`v²` never gives an attenuation smaller by 0.03 dB or more. Full statement: monotone; it is false, see
`C27_monotone_refuted`. -/
theorem C27_monotone_partial {u v a b : ℝ} (huv : u ≤ v) (ha : aknfe u = .ok a) (hb : aknfe v = .ok b) :
    (0 < u → (v < 5.76 ∨ 5.76 ≤ u) → a ≤ b) ∧ a < b + 0.03 := by
  have low : ∀ {u v : ℝ}, 0 < u → u ≤ v → (v < 5.76 ∨ 5.76 ≤ u) → knifeEdge u ≤ knifeEdge v := by
    intro u v h0 huv h
    unfold knifeEdge
    rcases h with h | h
    · rw [if_pos (lt_of_le_of_lt huv h), if_pos h]; exact knifeEdge_low_mono h0.le huv h.le
    · rw [if_neg (not_lt.2 h), if_neg (not_lt.2 (h.trans huv))]
      have := Real.log_le_log h0 huv
      norm_num; linarith
  have fb := C27_floor hb
  rw [aknfe_spec, ok_inj] at ha hb
  have pos : ∀ {w : ℝ}, 0 < w → clampV2 w = w := by intro w h; unfold clampV2; rw [if_neg (not_le.2 h)]
  refine ⟨fun h0 h => ?_, ?_⟩
  · rw [pos h0] at ha
    rw [pos (h0.trans_le huv)] at hb
    rw [← ha, ← hb]; exact low h0 huv h
  · by_cases h0 : u ≤ 0
    · have : a < 6.05 := by
        rw [← ha]
        unfold clampV2
        rw [if_pos h0]
        unfold knifeEdge
        rw [if_pos (by norm_num)]
        have : Real.sqrt 1e-5 ≤ 0.00317 := Real.sqrt_le_iff.2 ⟨by norm_num, by norm_num⟩
        generalize Real.sqrt 1e-5 = s at *
        norm_num at *; linarith
      norm_num at *; linarith
    · have h0 := not_le.1 h0
      rw [pos h0] at ha
      rw [pos (h0.trans_le huv)] at hb
      by_cases h : v < 5.76 ∨ 5.76 ≤ u
      · have := low h0 huv h
        rw [ha, hb] at this
        norm_num; linarith
      · push Not at h
        have e1 : knifeEdge u ≤ 20.5688 := by
          unfold knifeEdge
          rw [if_pos h.2]
          refine (knifeEdge_low_mono h0.le h.2.le le_rfl).trans ?_
          rw [show (5.76 : ℝ) = 2.4 ^ 2 by norm_num, Real.sqrt_sq (by norm_num)]
          norm_num
        have e2 : 20.5388 < knifeEdge v := by
          unfold knifeEdge
          rw [if_neg (not_lt.2 h.1)]
          have := Real.log_le_log (by norm_num) h.1
          have := log_576.1
          generalize Real.log v = L at *
          generalize Real.log 5.76 = M at *
          norm_num at *; linarith
        rw [ha] at e1
        rw [hb] at e2
        norm_num at *; linarith

/-- **C27** (monotonicity, refuted) Two drops: across `v² = 5.76`, and from nonpositive to very small positive `v²`. -/
theorem C27_monotone_refuted :
    (∃ u v a b : ℝ, 0 < u ∧ u < v ∧ aknfe u = .ok a ∧ aknfe v = .ok b ∧ b < a) ∧
    (∃ u v a b : ℝ, u ≤ 0 ∧ u < v ∧ aknfe u = .ok a ∧ aknfe v = .ok b ∧ b < a) := by
  refine ⟨⟨5.75, 5.76, _, _, by norm_num, by norm_num, aknfe_spec _, aknfe_spec _, ?_⟩,
    ⟨0, 1e-8, _, _, le_rfl, by norm_num, aknfe_spec _, aknfe_spec _, ?_⟩⟩
  · have c1 : clampV2 5.75 = 5.75 := by unfold clampV2; rw [if_neg (by norm_num)]
    have c2 : clampV2 5.76 = 5.76 := by unfold clampV2; rw [if_neg (by norm_num)]
    rw [c1, c2]
    have k1 : knifeEdge 5.75 = 6.02 + 9.11 * Real.sqrt 5.75 - 1.27 * 5.75 := by
      unfold knifeEdge; rw [if_pos (by norm_num)]
    have k2 : knifeEdge 5.76 = 12.953 + 4.343 * Real.log 5.76 := by
      unfold knifeEdge; rw [if_neg (by norm_num)]
    rw [k1, k2]
    have h1 : 2.3979 ≤ Real.sqrt 5.75 := Real.le_sqrt_of_sq_le (by norm_num)
    have h2 := log_576.2
    generalize Real.sqrt 5.75 = s at *
    generalize Real.log 5.76 = M at *
    norm_num at *; linarith
  · have c1 : clampV2 0 = 1e-5 := by unfold clampV2; rw [if_pos le_rfl]
    have c2 : clampV2 1e-8 = 1e-8 := by unfold clampV2; rw [if_neg (by norm_num)]
    rw [c1, c2]
    have k1 : knifeEdge 1e-5 = 6.02 + 9.11 * Real.sqrt 1e-5 - 1.27 * 1e-5 := by
      unfold knifeEdge; rw [if_pos (by norm_num)]
    have k2 : knifeEdge 1e-8 = 6.02 + 9.11 * Real.sqrt 1e-8 - 1.27 * 1e-8 := by
      unfold knifeEdge; rw [if_pos (by norm_num)]
    have h1 : 0.003 ≤ Real.sqrt 1e-5 := Real.le_sqrt_of_sq_le (by norm_num)
    have h2 : Real.sqrt 1e-8 = 1e-4 := by rw [show (1e-8 : ℝ) = 1e-4 ^ 2 by norm_num, Real.sqrt_sq (by norm_num)]
    rw [k1, k2, h2]
    generalize Real.sqrt 1e-5 = s at *
    norm_num at *; linarith

/-! ### C28 -/

/-- **C28** Between 200 and 2000 the height gain is a blend of the far and the near formula; the weight of the near one is
`0.0134 x exp(-x/200)`, which is at most 0.986. -/
theorem C28_blend {x pk : ℝ} (h1 : 200 ≤ x) (h2 : x < 2000) :
    ∃ v w, fht x pk = .ok v ∧ Blend v w (nearGain x) (farGain x) ∧ w = 0.0134 * x * Real.exp (-x / 200) ∧ w ≤ 0.986 := by
  have hw := fht_weight (x := x) (by linarith)
  have he : -x / 200 = -0.005 * x := by norm_num; ring
  refine ⟨_, 0.0134 * x * Real.exp (-0.005 * x), ?_, ⟨hw.1, hw.2.trans (by norm_num), rfl⟩, by rw [he], hw.2⟩
  unfold fht nearGain farGain
  simp only [lit_eq, rexp]
  rw [if_neg (by norm_num; exact h1), npLog_ok (by linarith), ok_bind, if_pos (by norm_num; exact h2), pure_ok]
  generalize Real.exp (-0.005 * x) = E
  congr 1
  norm_num
  ring

/-- **C28** Hence it lies between the two. -/
theorem C28_between {x pk v : ℝ} (h1 : 200 ≤ x) (h2 : x < 2000) (h : fht x pk = .ok v) :
    min (nearGain x) (farGain x) ≤ v ∧ v ≤ max (nearGain x) (farGain x) := by
  obtain ⟨v', w, e, b, _, _⟩ := C28_blend (pk := pk) h1 h2
  rw [h, ok_inj] at e
  subst e
  exact b.between

/-- **C28** The far formula from 2000 on. -/
theorem C28_far {x pk : ℝ} (h : 2000 ≤ x) : fht x pk = .ok (farGain x) := by
  unfold fht farGain
  simp only [lit_eq, rexp]
  rw [if_neg (by norm_num; linarith), npLog_ok (by linarith), ok_bind, if_neg (by norm_num; linarith), pure_ok]

/-- **C28** Below 200: the near formula floored at -117 dB when the impedance is small or `x` is large against it, and
the small-argument formula otherwise. -/
theorem C28_near {x pk : ℝ} (hp : 0 < pk) (h : x < 200) :
    ((pk < 1e-5 ∨ 5495 < x * (-Real.log pk) ^ 3) → ∃ v, fht x pk = .ok v ∧ -117 ≤ v ∧ v = max (-117) (if 0 < x then nearGain x else -117)) ∧
    (¬ (pk < 1e-5 ∨ 5495 < x * (-Real.log pk) ^ 3) →
      fht x pk = .ok (2.5e-5 * x ^ 2 / pk + 8.686 * Real.log pk - 15)) := by
  unfold fht
  simp only [lit_eq, npow_real]
  rw [if_pos (by norm_num; exact h), npLog_ok hp, ok_bind]
  rw [show (5495.0 : ℝ) = 5495 by norm_num, show (1.0 : ℝ) = 1 by norm_num]
  constructor
  · intro c
    rw [if_pos c]
    by_cases h1 : 1 < x
    · rw [if_pos h1, npLog_ok (by linarith), ok_bind, pure_ok]
      have hl := Real.log_nonneg h1.le
      refine ⟨_, rfl, ?_, ?_⟩
      · norm_num; linarith
      · rw [if_pos (by linarith)]
        unfold nearGain
        rw [max_eq_right]
        · norm_num
          rw [sub_eq_add_neg]
        · norm_num; linarith
    · rw [if_neg h1, pure_ok]
      refine ⟨_, rfl, by norm_num, ?_⟩
      split_ifs with h0
      · unfold nearGain
        have hl := Real.log_nonpos h0.le (not_lt.1 h1)
        rw [max_eq_left]
        · norm_num
        · norm_num; linarith
      · norm_num
  · intro c
    rw [if_neg c, pyDiv_ok hp.ne', ok_bind, pure_ok]
    congr 1; norm_num

/-- All four branches are inhabited. -/
example : (∃ v, fht (500 : ℝ) 0.1 = .ok v) ∧ (∃ v, fht (3000 : ℝ) 0.1 = .ok v) ∧
    (∃ v, fht (10 : ℝ) 1e-6 = .ok v ∧ -117 ≤ v) ∧ fht (0 : ℝ) 1 = .ok (-15) := by
  refine ⟨?_, ⟨_, C28_far (by norm_num)⟩, ?_, ?_⟩
  · obtain ⟨v, w, e, _⟩ := C28_blend (x := 500) (pk := 0.1) (by norm_num) (by norm_num)
    exact ⟨v, e⟩
  · obtain ⟨v, e, h, _⟩ := (C28_near (x := 10) (pk := 1e-6) (by norm_num) (by norm_num)).1 (.inl (by norm_num))
    exact ⟨v, e, h⟩
  · rw [(C28_near (x := 0) (pk := 1) one_pos (by norm_num)).2 (by norm_num)]
    norm_num

/-! ### C26 -/

/-- **C26** For `d ≠ 0` the dictionary is unchanged and the value is a blend of rounded-earth and double knife-edge
attenuation, with weight in (0, 1], plus the clutter term. -/
theorem C26_blend {p q : PropSt ℝ} {h : Horizon ℝ} {c : DiffC ℝ} {d a : ℝ} (hd : d ≠ 0) (hh : p.hor = some h)
    (hc : p.diff = some c) (hr : adiff d p = .ok (a, q)) :
    q = p ∧ ∃ w, 0 < w ∧ w = diffWeight p.wn p.dh c.wd1 c.xd1 d ∧
      Blend (a - c.afo) w (roundedEarth p.wn (d - h.dla) (h.tha + d * p.gme) c.qk c.xht c.aht)
        (doubleKnife p.wn (d - h.dla) (h.tha + d * p.gme) p.dl.x0 p.dl.x1) := by
  unfold adiff at hr
  rw [if_neg (by rw [pyEq_real, zero_lit]; exact hd)] at hr
  obtain ⟨⟨ar, ke⟩, h1, hr⟩ := bind_eq_ok.1 hr
  simp only at hr
  obtain ⟨wd, h2, hr⟩ := bind_eq_ok.1 hr
  simp only [hc, need, ok_bind, pure_ok, ok_inj, Prod.mk.injEq] at hr
  refine ⟨hr.2.symm, ?_⟩
  have e25 : ∀ s : ℝ, 0 ≤ s → 0 < 25.1 + s := by intro s hs; norm_num; linarith
  -- the weight
  have hw : wd = diffWeight p.wn p.dh c.wd1 c.xd1 d := by
    unfold adiffWeight at h2
    simp only [hc, need, ok_bind] at h2
    obtain ⟨x, hx, h2⟩ := bind_eq_ok.1 h2
    obtain ⟨s, hs, h2⟩ := bind_eq_ok.1 h2
    rw [(pyDiv_eq_ok.1 h2).2, (mathSqrt_eq_ok.1 hs).2, (pyDiv_eq_ok.1 hx).2, pyMin_real, rexp]
    unfold diffWeight irregularity
    norm_num
  have hw1 : 0 < wd ∧ wd ≤ 1 := by
    rw [hw]; unfold diffWeight
    have := Real.sqrt_nonneg ((c.wd1 + c.xd1 / d) * min (irregularity p.dh d * p.wn) 6283.2)
    generalize Real.sqrt _ = s at *
    exact ⟨div_pos (by norm_num) (e25 s this), (div_le_one (e25 s this)).2 (by linarith)⟩
  -- the two attenuations
  unfold adiffParts at h1
  simp only [hh, hc, need, ok_bind] at h1
  obtain ⟨x0, g0, h1⟩ := bind_eq_ok.1 h1
  obtain ⟨k0, g1, h1⟩ := bind_eq_ok.1 h1
  obtain ⟨x1, g2, h1⟩ := bind_eq_ok.1 h1
  obtain ⟨k1, g3, h1⟩ := bind_eq_ok.1 h1
  obtain ⟨al, g4, h1⟩ := bind_eq_ok.1 h1
  obtain ⟨wa, g5, h1⟩ := bind_eq_ok.1 h1
  obtain ⟨pk, g6, h1⟩ := bind_eq_ok.1 h1
  obtain ⟨lg, g7, h1⟩ := bind_eq_ok.1 h1
  simp only [pure_ok, ok_inj, Prod.mk.injEq] at h1
  rw [aknfe_spec, ok_inj] at g1 g3
  have hke : ke = doubleKnife p.wn (d - h.dla) (h.tha + d * p.gme) p.dl.x0 p.dl.x1 := by
    rw [← h1.2, ← g1, ← g3, (pyDiv_eq_ok.1 g0).2, (pyDiv_eq_ok.1 g2).2, npow_real]
    rfl
  have hwa : wa = ((d - h.dla) / (h.tha + d * p.gme) * p.wn) ^ (1 / 3 : ℝ) := by
    rw [(pyPow_eq_ok.1 g5).2.2, (pyDiv_eq_ok.1 g4).2, third_real]
  have hq : (1.607 - pk) * 151.0 * wa * (h.tha + d * p.gme) + c.xht =
      roundedArg p.wn (d - h.dla) (h.tha + d * p.gme) c.qk c.xht := by
    rw [(pyDiv_eq_ok.1 g6).2, hwa]
    unfold roundedArg
    norm_num
  have har : ar = roundedEarth p.wn (d - h.dla) (h.tha + d * p.gme) c.qk c.xht c.aht := by
    rw [← h1.1, (npLog_eq_ok.1 g7).2, hq]
    unfold roundedEarth
    norm_num
  refine ⟨wd, hw1.1, hw, hw1.1.le, hw1.2, ?_⟩
  rw [← hr.1, ← har, ← hke]
  norm_num
  ring

/-- **C26** `adiff(0)` returns 0 and changes only the six set-up keys; the clutter term it stores is between 0 and 15 dB. -/
theorem C26_setup {p q : PropSt ℝ} {h : Horizon ℝ} {a : ℝ} (hh : p.hor = some h) (h0 : 0 ≤ p.hg.x0) (h1 : 0 ≤ p.hg.x1)
    (hw : 0 ≤ p.wn) (hdh : 0 ≤ p.dh) (hds : 0 ≤ h.dlsa) (hr : adiff 0 p = .ok (a, q)) :
    a = 0 ∧ ∃ c, q = { p with diff := some c } ∧ 0 ≤ c.afo ∧ c.afo ≤ 15 := by
  unfold adiff at hr
  rw [if_pos (by rw [pyEq_real, zero_lit])] at hr
  unfold adiffInit at hr
  simp only [hh, need, ok_bind] at hr
  obtain ⟨_, _, hr⟩ := bind_eq_ok.1 hr
  obtain ⟨_, _, hr⟩ := bind_eq_ok.1 hr
  obtain ⟨_, _, hr⟩ := bind_eq_ok.1 hr
  obtain ⟨pw, _, hr⟩ := bind_eq_ok.1 hr
  obtain ⟨l, hl, hr⟩ := bind_eq_ok.1 hr
  obtain ⟨_, _, hr⟩ := bind_eq_ok.1 hr
  obtain ⟨_, _, hr⟩ := bind_eq_ok.1 hr
  obtain ⟨_, _, hr⟩ := bind_eq_ok.1 hr
  simp only [pure_ok, ok_inj, Prod.mk.injEq] at hr
  refine ⟨by rw [← hr.1, zero_lit], _, hr.2.symm.trans (by rw [← hh]), ?_, ?_⟩
  · simp only [pyMin_real]
    refine le_min (by norm_num) (mul_nonneg (by norm_num) ?_)
    rw [(npLog_eq_ok.1 hl).2]
    refine Real.log_nonneg ?_
    have := dhAt_nonneg hdh hds
    unfold dhAt at this
    rw [rexp, rexp]
    have e : 0 ≤ 4.77e-4 * p.hg.x0 * p.hg.x1 * p.wn *
        (0.78 * ((1.0 - 0.8 * Real.exp (-h.dlsa / 50e3)) * p.dh) * Real.exp (-pw)) := by positivity
    norm_num at *; linarith
  · simp only [pyMin_real]
    exact (min_le_left _ _).trans (by norm_num)

/-- **C26** The six constants stored by `adiff(0)`. -/
theorem C26_setup_values {p q : PropSt ℝ} {h : Horizon ℝ} {c : DiffC ℝ} {a : ℝ} (hh : p.hor = some h) (hr : adiff 0 p = .ok (a, q))
    (hc : q.diff = some c) :
    c.qk = 1 / Real.sqrt (p.zgnd.re ^ 2 + p.zgnd.im ^ 2) ∧
    c.wd1 = Real.sqrt (1 + (p.he.x0 * p.he.x1 - p.hg.x0 * p.hg.x1) / (p.hg.x0 * p.hg.x1 + if p.mdp < 0 then 10 else 0)) ∧
    c.xd1 = h.dla + h.tha / p.gme ∧
    c.afo = clutter p.wn p.dh p.hg.x0 p.hg.x1 h.dlsa ∧
    c.xht = terminalArg p.wn c.qk p.dl.x0 p.he.x0 + terminalArg p.wn c.qk p.dl.x1 p.he.x1 ∧
    ∃ f0 f1, fht (terminalArg p.wn c.qk p.dl.x0 p.he.x0) (terminalK p.wn c.qk p.dl.x0 p.he.x0) = .ok f0 ∧
      fht (terminalArg p.wn c.qk p.dl.x1 p.he.x1) (terminalK p.wn c.qk p.dl.x1 p.he.x1) = .ok f1 ∧ c.aht = 20 + f0 + f1 := by
  have term : ∀ {k z dl he x f : ℝ}, adiffTerm k z dl he = .ok (x, f) →
      x = terminalArg k z dl he ∧ fht x (terminalK k z dl he) = .ok f := by
    intro k z dl he x f hr
    unfold adiffTerm at hr
    obtain ⟨a, ha, hr⟩ := bind_eq_ok.1 hr
    obtain ⟨wa, hwa, hr⟩ := bind_eq_ok.1 hr
    obtain ⟨pk, hpk, hr⟩ := bind_eq_ok.1 hr
    obtain ⟨x', hx, hr⟩ := bind_eq_ok.1 hr
    obtain ⟨f', hf, hr⟩ := bind_eq_ok.1 hr
    simp only [pure_ok, ok_inj, Prod.mk.injEq] at hr
    rw [hr.1, hr.2] at hf
    have ea : a = dl ^ 2 / (2 * he) := by
      rw [(pyDiv_eq_ok.1 ha).2, npow_real]
      have := (pyDiv_eq_ok.1 ha).1
      field_simp; norm_num; ring
    have ew : wa = (dl ^ 2 / (2 * he) * k) ^ (1 / 3 : ℝ) := by
      rw [(pyPow_eq_ok.1 hwa).2.2, ea, third_real]
    have ep : pk = terminalK k z dl he := by rw [(pyDiv_eq_ok.1 hpk).2, ew]; rfl
    rw [ep] at hf
    refine ⟨?_, hf⟩
    have hdl : dl ≠ 0 := by
      rintro rfl
      refine (pyDiv_eq_ok.1 hx).1 ?_
      rw [ea]; simp
    have hhe : he ≠ 0 := (pyDiv_eq_ok.1 ha).1
    have e2 : dl / (2 * he / dl) = dl ^ 2 / (2 * he) := by field_simp
    rw [← hr.1, (pyDiv_eq_ok.1 hx).2, ep]
    unfold terminalArg roundedArg terminalK
    rw [e2, ← ew, ea, add_zero]
    field_simp
    norm_num
  unfold adiff at hr
  rw [if_pos (by rw [pyEq_real, zero_lit])] at hr
  unfold adiffInit at hr
  simp only [hh, need, ok_bind] at hr
  obtain ⟨r, hr0, hr⟩ := bind_eq_ok.1 hr
  obtain ⟨wd1, hwd, hr⟩ := bind_eq_ok.1 hr
  obtain ⟨xg, hxg, hr⟩ := bind_eq_ok.1 hr
  obtain ⟨pw, hpw, hr⟩ := bind_eq_ok.1 hr
  obtain ⟨l, hl, hr⟩ := bind_eq_ok.1 hr
  obtain ⟨z, hz, hr⟩ := bind_eq_ok.1 hr
  obtain ⟨⟨q0, f0⟩, ht0, hr⟩ := bind_eq_ok.1 hr
  obtain ⟨⟨q1, f1⟩, ht1, hr⟩ := bind_eq_ok.1 hr
  simp only [pure_ok, ok_inj, Prod.mk.injEq] at hr
  rw [← hr.2] at hc
  simp only [Option.some.injEq] at hc
  rw [← hc]
  have e1 : (1.0 : ℝ) = 1 := by norm_num
  obtain ⟨t0, t0'⟩ := term ht0
  obtain ⟨t1, t1'⟩ := term ht1
  refine ⟨?_, ?_, ?_, ?_, ?_, f0, f1, ?_, ?_, ?_⟩
  · simp only
    rw [(pyDiv_eq_ok.1 hz).2, cxabs_real, e1, pow_two, pow_two]
  · simp only
    rw [(mathSqrt_eq_ok.1 hwd).2, (pyDiv_eq_ok.1 hr0).2, e1]
    congr 3
    split_ifs
    · norm_num
    · rw [add_zero]
  · simp only
    rw [(pyDiv_eq_ok.1 hxg).2]
  · simp only [pyMin_real]
    rw [(npLog_eq_ok.1 hl).2, (pyPow_eq_ok.1 hpw).2.2]
    unfold clutter terrainSigma irregularity
    rw [rexp, rexp]
    norm_num
  · simp only
    rw [t0, t1, zero_lit, zero_add]
  · simp only
    rw [← t0]; exact t0'
  · simp only
    rw [← t1]; exact t1'
  · simp only
    norm_num

/-- The hypotheses of `C26_blend` are met along the real set-up of the smooth link: both line points are such calls. -/
example : ∃ (c : DiffC ℝ) (a : ℝ) (q : PropSt ℝ),
    adiff 500000 { blank 1 smoothIn with hor := some (horR smoothIn), diff := some c } = .ok (a, q) := by
  obtain ⟨f0, f1, _, _, hc⟩ := diffC_ok (mdp := 1) (h := horR smoothIn) (tangent_adm (x := 80000) (by norm_num)) (horR_dlsa_pos (tangent_adm (by norm_num))).le
  obtain ⟨c, hcd⟩ : ∃ c, c = diffR 1 smoothIn f0 f1 := ⟨_, rfl⟩
  refine ⟨c, ?_⟩
  have hx : (0 : ℝ) < 80000 := by norm_num
  have hor : (horR smoothIn) = ⟨⟨80000, 80000⟩, 160000, 80000 + 80000, -((80000 + 80000) * 1.25e-7)⟩ := tangent_hor hx
  have hq : 0 < pathQ smoothIn (horR smoothIn) c 500000 := by
    rw [hcd]; unfold smoothIn; rw [tangent_q hx (by norm_num), termQ_smooth]; norm_num
  have := adiffC_ok (mdp := 1) (i := smoothIn) (h := horR smoothIn) (c := c) (d := 500000) (tangent_adm hx) (by norm_num) (by rw [hor]; norm_num)
    (by rw [hor, show smoothIn.gme = 1.25e-7 from rfl]; norm_num) hq ?_
  · unfold adiffC at this
    obtain ⟨⟨a, q⟩, e, _⟩ := bind_eq_ok.1 this
    exact ⟨a, q, e⟩
  · rw [hcd]
    have hx1 := xd1_nonneg (tangent_adm hx : Adm smoothIn)
    unfold diffR
    simp only
    have := Real.sqrt_nonneg (1.0 + (smoothIn.he.x0 * smoothIn.he.x1 - smoothIn.hg.x0 * smoothIn.hg.x1) / hgq 1 smoothIn)
    positivity

end Itm.Props
