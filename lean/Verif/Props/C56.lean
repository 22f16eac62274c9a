import Verif.Spec.Quantile
import Verif.Props.C09

/-! C56: in every history `avar` returns the published quantile formula, and reports extreme deviates. -/

namespace Itm.Props
open Itm Itm.Spec

/-- The table row as entries of the published tables. -/
theorem climate_entries {k : ℤ} (h : ClimateCode k) {c : Climate ℝ} (hc : pyGet climates (k - 1) = .ok c) :
    (c.cv1 = entry k 0 ∧ c.cv2 = entry k 1 ∧ c.yv1 = entry k 2 ∧ c.yv2 = entry k 3 ∧ c.yv3 = entry k 4) ∧
    (c.csm1 = entry k 5 ∧ c.csm2 = entry k 6 ∧ c.ysm1 = entry k 7 ∧ c.ysm2 = entry k 8 ∧ c.ysm3 = entry k 9) ∧
    (c.csp1 = entry k 10 ∧ c.csp2 = entry k 11 ∧ c.ysp1 = entry k 12 ∧ c.ysp2 = entry k 13 ∧ c.ysp3 = entry k 14) ∧
    (c.csd1 = entry k 15 ∧ c.zd = entry k 16) ∧ (c.cfm1 = entry k 17 ∧ c.cfm2 = entry k 18 ∧ c.cfm3 = entry k 19) ∧
    c.cfp1 = entry k 20 ∧ c.cfp2 = entry k 21 ∧ c.cfp3 = entry k 22 := by
  obtain ⟨h1, h7⟩ := h
  have key : ∀ c' : Climate ℝ, (.ok c' : Py (Climate ℝ)) = .ok c → c = c' := fun c' e => (ok_inj.1 e).symm
  interval_cases k <;> (obtain rfl := key _ hc; exact ⟨⟨rfl, rfl, rfl, rfl, rfl⟩, ⟨rfl, rfl, rfl, rfl, rfl⟩,
    ⟨rfl, rfl, rfl, rfl, rfl⟩, ⟨rfl, rfl⟩, ⟨rfl, rfl, rfl⟩, rfl, rfl, rfl⟩)

theorem curv_formula (c1 c2 x1 x2 x3 de : ℝ) :
    curv c1 c2 x1 x2 x3 de = (c1 + c2 / (1 + ((de - x2) / x3) ^ 2)) * ((de / x1) ^ 2 / (1 + (de / x1) ^ 2)) := by
  unfold curv
  simp only [npow_real]
  norm_num
  ring

/-- The coefficients of a fresh computation are those of the formula. -/
theorem freshSetup_formula {p : PropSt ℝ} {c : Climate ℝ} {m : VarMode} {g : FreqGain ℝ} {x : ℝ} {v : VarC ℝ} {k kk : ℤ}
    (hk : p.klim = some kk) (hkk : fixKlim kk = k) (hc : ClimateCode k) (h : freshSetup p = .ok (c, m, g, x, v)) :
    let de := effectiveDist p.dist p.he.x0 p.he.x1 p.wn
    v.vmd = climCurve k 0 de ∧ (∀ z, sgtR c.zd v z = sigmaT k de p.wn z) ∧ v.sgl = sigmaL m.wl p.dist p.dh p.wn ∧
      v.vs0 = (if m.ws then 0 else (5 + 3 * Real.exp (-de / 100e3)) ^ 2) := by
  intro de
  unfold freshSetup at h
  rw [hk, need_some, ok_bind, hkk] at h
  obtain ⟨c', hc', h⟩ := bind_eq_ok.1 h
  obtain ⟨md, hmd, h⟩ := bind_eq_ok.1 h
  obtain ⟨g', hg, h⟩ := bind_eq_ok.1 h
  obtain ⟨x', hx, h⟩ := bind_eq_ok.1 h
  obtain ⟨v', hv, h⟩ := bind_eq_ok.1 h
  rw [pure_ok, ok_inj] at h
  simp only [Prod.mk.injEq] at h
  obtain ⟨rfl, hm, rfl, rfl, rfl⟩ := h
  rw [hm] at hv
  obtain ⟨⟨a1, a2, a3, a4, a5⟩, ⟨b1, b2, b3, b4, b5⟩, ⟨d1, d2, d3, d4, d5⟩, ⟨e1, e2⟩, ⟨f1, f2, f3⟩, g1, g2, g3⟩ :=
    climate_entries hc hc'
  have hcg := climGood hc'
  -- the crossing distance
  have hw : 0 < p.wn := (freqGain_pos hcg hg).1
  have hxp : x' = crossDist p.he.x0 p.he.x1 p.wn := by
    unfold dexaOf at hx
    obtain ⟨a, ha, hx⟩ := bind_eq_ok.1 hx
    obtain ⟨b, hb, hx⟩ := bind_eq_ok.1 hx
    obtain ⟨q, hq, hx⟩ := bind_eq_ok.1 hx
    obtain ⟨r, hr, hx⟩ := bind_eq_ok.1 hx
    obtain ⟨_, rfl⟩ := mathSqrt_eq_ok.1 ha
    obtain ⟨_, rfl⟩ := mathSqrt_eq_ok.1 hb
    obtain ⟨_, rfl⟩ := pyDiv_eq_ok.1 hq
    obtain ⟨_, _, rfl⟩ := pyPow_eq_ok.1 hr
    rw [pure_ok, ok_inj] at hx
    rw [← hx]
    unfold crossDist third
    have t1 : (18e6 : ℝ) = 2 * 9e6 := by norm_num
    have t2 : (1.0 / 3.0 : ℝ) = 1 / 3 := by norm_num
    rw [t1, t2]
  have hx0 := dexaOf_pos hw hx
  -- the frequency gains
  have hgm : g'.gm = freqCurve k 17 p.wn ∧ g'.gp = freqCurve k 20 p.wn := by
    unfold freqGain at hg
    simp only [npow_real] at hg
    obtain ⟨q, hq, hg⟩ := bind_eq_ok.1 hg
    obtain ⟨a, ha, hg⟩ := bind_eq_ok.1 hg
    obtain ⟨b, hb, hg⟩ := bind_eq_ok.1 hg
    obtain ⟨_, rfl⟩ := pyDiv_eq_ok.1 ha
    obtain ⟨_, rfl⟩ := pyDiv_eq_ok.1 hb
    obtain ⟨_, rfl⟩ := npLog_eq_ok.1 hq
    rw [pure_ok, ok_inj] at hg
    rw [← hg]
    unfold freqCurve
    have t1 : ∀ y : ℝ, y + 1.0 = 1 + y := fun y => by norm_num; ring
    simp only [t1, f1, f2, f3, g1, g2, g3, and_self]
  -- the distance dependent part
  unfold varCoef at hv
  obtain ⟨de', hde, hv⟩ := bind_eq_ok.1 hv
  obtain ⟨s, hs, hv⟩ := bind_eq_ok.1 hv
  have hded : de' = de := by
    unfold effDist at hde
    show de' = effectiveDist _ _ _ _
    unfold effectiveDist
    rw [← hxp]
    split_ifs at hde ⊢ with hlt
    · obtain ⟨_, rfl⟩ := pyDiv_eq_ok.1 hde
      ring
    · rw [pure_ok, ok_inj] at hde
      rw [← hde]; ring
  subst hded
  rw [pure_ok, ok_inj] at hv
  subst hv
  simp only [curv_formula, a1, a2, a3, a4, a5, b1, b2, b3, b4, b5, d1, d2, d3, d4, d5, e1, hgm.1, hgm.2]
  refine ⟨rfl, ?_, ?_, ?_⟩
  · intro z
    have hz : 0 < entry k 16 := by rw [← e2]; exact hcg.zd
    unfold sgtR sigmaT climCurve
    simp only [e2]
    by_cases h1 : z < 0
    · rw [if_pos h1, if_pos h1]
    · rw [if_neg h1, if_neg h1]
      by_cases h2 : z ≤ entry k 16
      · rw [if_pos h2, if_pos h2]
      · rw [if_neg h2, if_neg h2]
        have : z ≠ 0 := by intro h; subst h; exact h2 hz.le
        field_simp
        ring
  · unfold sglOf at hs
    unfold sigmaL
    cases hwl : m.wl with
    | true =>
      rw [hwl, if_pos rfl, pure_ok, ok_inj] at hs
      rw [if_pos rfl, ← hs]; norm_num
    | false =>
      rw [hwl, if_neg (by decide)] at hs
      obtain ⟨_, rfl⟩ := pyDiv_eq_ok.1 hs
      rw [if_neg (by decide)]
      simp only [rexp]
      generalize Real.exp (-p.dist / 50e3) = E
      have t : (1.0 - 0.8 * E) * p.dh * p.wn = p.wn * (p.dh * (1 - 0.8 * E)) := by norm_num; ring
      rw [t]
      norm_num
  · simp only [npow_real, rexp, zero_lit]
    generalize Real.exp (-de / 100e3) = E
    norm_num

/-- The deviation of the model is the deviation of the formula. -/
theorem devR_formula {zd : ℝ} {v : VarC ℝ} {k : ℤ} {noLoc noSit : Bool} {d dh de w : ℝ}
    (h2 : ∀ z, sgtR zd v z = sigmaT k de w z) (h3 : v.sgl = sigmaL noLoc d dh w)
    (h4 : v.vs0 = (if noSit then 0 else (5 + 3 * Real.exp (-de / 100e3)) ^ 2)) (m : ℤ) (zt zl zc : ℝ) :
    devR m zd v zt zl zc = deviation k m noLoc noSit d dh de w zt zl zc := by
  unfold devR deviation situationVar
  simp only [tdev, vsR, h2, h3, h4]
  split_ifs <;> ring

/-- **C56** In any history that follows the `lvar` protocol and starts with `lvar = 5`, every answer of `avar` is the published
quantile of the current parameters – climate, mode, distance, terrain irregularity, effective heights, wave number and reference
attenuation – and of the deviates. -/
theorem C56_avar_formula {p₀ p q : PropSt ℝ} {a zt zl zc ar : ℝ} {k md m : ℤ} {noLoc noSit : Bool} (h5 : p₀.lvar = 5)
    (hr : Reach p₀ p) (hk : p.klim = some k) (hc : ClimateCode k) (hmd : p.mdvar = some md) (hm : ModeCode md m noLoc noSit)
    (har : p.aref = some ar) (h : avar zt zl zc p = .ok (a, q)) :
    a = quantile k m noLoc noSit p.dist p.dh p.he.x0 p.he.x1 p.wn ar zt zl zc := by
  obtain ⟨c, m', g, x, v, ar', k', md', hf, har', hk', hmd', hm', hcg, hw, hx, g1, g2, hvc, hvg, rfl⟩ :=
    avar_real (cacheInv_reach (by omega) hr) h
  rw [hk] at hk'; rw [hmd] at hmd'; rw [har] at har'
  obtain rfl := Option.some.inj hk'
  obtain rfl := Option.some.inj hmd'
  obtain rfl := Option.some.inj har'
  have hfk : fixKlim k = k := by unfold fixKlim; rw [if_neg (by obtain ⟨_, _⟩ := hc; omega)]
  obtain ⟨h1, h2, h3, h4⟩ := freshSetup_formula hk hfk hc hf
  rw [decodeMode_valid hm] at hm'
  subst hm'
  rw [devR_formula h2 h3 h4, h1]
  rfl

/-- **C56** An undocumented climate is answered as continental temperate (5). -/
theorem C56_avar_formula_bad_climate {p₀ p q : PropSt ℝ} {a zt zl zc ar : ℝ} {k md m : ℤ} {noLoc noSit : Bool}
    (h5 : p₀.lvar = 5) (hr : Reach p₀ p) (hk : p.klim = some k) (hc : ¬ ClimateCode k) (hmd : p.mdvar = some md)
    (hm : ModeCode md m noLoc noSit) (har : p.aref = some ar) (h : avar zt zl zc p = .ok (a, q)) :
    a = quantile 5 m noLoc noSit p.dist p.dh p.he.x0 p.he.x1 p.wn ar zt zl zc := by
  obtain ⟨c, m', g, x, v, ar', k', md', hf, har', hk', hmd', hm', hcg, hw, hx, g1, g2, hvc, hvg, rfl⟩ :=
    avar_real (cacheInv_reach (by omega) hr) h
  rw [hk] at hk'; rw [hmd] at hmd'; rw [har] at har'
  obtain rfl := Option.some.inj hk'
  obtain rfl := Option.some.inj hmd'
  obtain rfl := Option.some.inj har'
  have hfk : fixKlim k = 5 := by unfold fixKlim; rw [if_pos (by unfold ClimateCode at hc; omega)]
  obtain ⟨h1, h2, h3, h4⟩ := freshSetup_formula hk hfk ⟨by decide, by decide⟩ hf
  rw [decodeMode_valid hm] at hm'
  subst hm'
  rw [devR_formula h2 h3 h4, h1]
  rfl

/-- **C56** The answer exists for every physical dictionary: positive wave number, nonnegative heights, distance and irregularity. -/
theorem C56_avar_answers {p₀ p : PropSt ℝ} {zt zl zc ar : ℝ} {k md m : ℤ} {noLoc noSit : Bool} (h5 : p₀.lvar = 5)
    (hr : Reach p₀ p) (hk : p.klim = some k) (hc : ClimateCode k) (hmd : p.mdvar = some md) (hm : ModeCode md m noLoc noSit)
    (har : p.aref = some ar) (hw : 0 < p.wn) (h0 : 0 ≤ p.he.x0) (h1 : 0 ≤ p.he.x1) (hd : 0 ≤ p.dist) (hh : 0 ≤ p.dh) :
    ∃ q, avar zt zl zc p = .ok (quantile k m noLoc noSit p.dist p.dh p.he.x0 p.he.x1 p.wn ar zt zl zc, q) := by
  obtain ⟨a, q, h⟩ := avar_total (cacheInv_reach (by omega : 5 ≤ p₀.lvar) hr) hk hmd har hw h0 h1 hd hh zt zl zc
  have := C56_avar_formula h5 hr hk hc hmd hm har h
  exact ⟨q, by rw [h, this]⟩

variable {α : Type} [PyNum α]

/-- Preparation with documented codes leaves the error marker alone. -/
theorem avarSetup_kwx {p r : PropSt α} (h : avarSetup p = .ok r) (hk : 4 < p.lvar → ∃ k, p.klim = some k ∧ ClimateCode k)
    (hm : 3 < p.lvar → ∃ md m a b, p.mdvar = some md ∧ ModeCode md m a b) : r.kwx = p.kwx := by
  unfold avarSetup at h
  split_ifs at h with h0
  · obtain ⟨p1, h1, h⟩ := bind_eq_ok.1 h
    obtain ⟨p2, h2, h⟩ := bind_eq_ok.1 h
    obtain ⟨p3, h3, h⟩ := bind_eq_ok.1 h
    obtain ⟨p4, h4, h⟩ := bind_eq_ok.1 h
    obtain ⟨g, rfl⟩ := avarFreq_ok h3
    obtain ⟨x, rfl⟩ := avarDexa_ok h4
    obtain ⟨v, rfl⟩ := avarDist_ok h
    have e1 : p1.kwx = p.kwx ∧ p1.lvar = p.lvar ∧ p1.mdvar = p.mdvar := by
      unfold avarClimate at h1
      split_ifs at h1 with hl
      · obtain ⟨k, hk', hc⟩ := hk hl
        have : ¬ (k ≤ 0 ∨ 7 < k) := by obtain ⟨_, _⟩ := hc; omega
        simp only [hk', need_some, ok_bind, this, if_false] at h1
        obtain ⟨c, _, h1⟩ := bind_eq_ok.1 h1
        rw [pure_ok, ok_inj] at h1; subst h1; exact ⟨rfl, rfl, rfl⟩
      · rw [pure_ok, ok_inj] at h1; subst h1; exact ⟨rfl, rfl, rfl⟩
    have e2 : p2.kwx = p1.kwx := by
      unfold avarMode at h2
      split_ifs at h2 with hl
      · obtain ⟨md, m, a, b, hmd, hmc⟩ := hm (by rw [← e1.2.1]; exact hl)
        rw [e1.2.2, hmd, need_some, ok_bind, decodeMode_valid hmc] at h2
        simp only [Bool.false_eq_true, if_false, pure_ok, ok_inj] at h2
        subst h2; rfl
      · rw [pure_ok, ok_inj] at h2; subst h2; rfl
    exact e2.trans e1.1
  · rw [pure_ok, ok_inj] at h; subst h; rfl

/-- **C56** The warning: a call in kind `m` raises `kwx` to at least 1 when one of the deviates that kind uses exceeds 3.10 in
magnitude, and otherwise (with documented codes) leaves it alone. For every arithmetic. -/
theorem C56_deviate_warning {p q : PropSt α} {a zt zl zc : α} {m : ℤ} (hm : InMode p m) (hm0 : 0 ≤ m ∧ m ≤ 3)
    (hk : 4 < p.lvar → ∃ k, p.klim = some k ∧ ClimateCode k) (h : avar zt zl zc p = .ok (a, q)) :
    ((∃ z ∈ usedDeviates m zt zl zc, (3.10 : α) < PyNum.abs z) → q.kwx = max p.kwx 1) ∧
    ((∀ z ∈ usedDeviates m zt zl zc, ¬ (3.10 : α) < PyNum.abs z) → q.kwx = p.kwx) := by
  obtain ⟨r, md, c, v, ar, hr, hmd, _, _, _, rfl, _⟩ := avar_ok h
  have hu := (modeUsed_setup hr hmd).symm.trans (modeUsed_of_inMode hm)
  have hu : md.kdv = m := by simpa using hu
  have hkw : r.kwx = p.kwx := by
    refine avarSetup_kwx hr hk ?_
    intro hl
    rcases hm with ⟨_, md', a', b', h1, h2⟩ | ⟨hl', _⟩
    · exact ⟨md', m, a', b', h1, h2⟩
    · omega
  simp only [hu, hkw, avarKwx]
  obtain ⟨h0, h3⟩ := hm0
  have hcases : m = 0 ∨ m = 1 ∨ m = 2 ∨ m = 3 := by omega
  rcases hcases with rfl | rfl | rfl | rfl <;>
    simp only [usedDeviates, avarDeviates, if_true, if_false, List.mem_cons, List.not_mem_nil, or_false, exists_eq_or_imp,
      exists_eq_left, forall_eq_or_imp, forall_eq, show ¬ (1 : ℤ) = 0 by decide, show ¬ (1 : ℤ) = 3 by decide,
      show ¬ (2 : ℤ) = 0 by decide, show ¬ (2 : ℤ) = 1 by decide, show ¬ (2 : ℤ) = 3 by decide,
      show ¬ (3 : ℤ) = 0 by decide, show ¬ (3 : ℤ) = 1 by decide, show ¬ (3 : ℤ) = 2 by decide] <;>
    constructor <;> intro hz
  all_goals first
    | (rw [if_pos (by tauto)])
    | (rw [if_neg (by tauto)])

/-- The demo dictionary meets the hypotheses, with its own mode (12) and climate (5), also after a change of the distance. -/
example : ∃ a q, avar (-1) 0 (-1.5) demo = .ok (a, q) ∧ a = quantile 5 2 true false 50000 90 30 10 2 20 (-1) 0 (-1.5) := by
  obtain ⟨q, h⟩ := C56_avar_answers (p₀ := demo) (p := demo) (zt := -1) (zl := 0) (zc := -1.5) (ar := 20) (k := 5) (md := 12)
    (m := 2) (noLoc := true) (noSit := false) rfl .refl rfl ⟨by decide, by decide⟩ rfl ⟨by decide, by decide, rfl⟩ rfl
    (by norm_num [demo]) (by norm_num [demo]) (by norm_num [demo]) (by norm_num [demo]) (by norm_num [demo])
  exact ⟨_, q, h, rfl⟩

/-- A deviate of 4 in use raises the marker; the same value in the unused slot does not. -/
example : ∃ a q a' q', avar 4 0 0 demo = .ok (a, q) ∧ q.kwx = 1 ∧ avar 0 4 0 demo = .ok (a', q') ∧ q'.kwx = 0 := by
  have hm : InMode demo 2 := .inl ⟨by simp only [demo]; decide, 12, true, false, rfl, by decide, by decide, rfl⟩
  have hk : 4 < demo.lvar → ∃ k, demo.klim = some k ∧ ClimateCode k := fun _ => ⟨5, rfl, by decide, by decide⟩
  obtain ⟨a, q, h⟩ := demo_answers 4 0 0 12 20
  obtain ⟨a', q', h'⟩ := demo_answers 0 4 0 12 20
  refine ⟨a, q, a', q', h, (C56_deviate_warning hm (by decide) hk h).1 ⟨4, ?_, ?_⟩, h',
    (C56_deviate_warning hm (by decide) hk h').2 ?_⟩
  · simp [usedDeviates]
  · simp only [rabs]; norm_num
  · intro z hz
    have : z = 0 := by simpa [usedDeviates] using hz
    subst this
    simp only [rabs]; norm_num

end Itm.Props
