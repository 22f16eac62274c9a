import Verif.Lemmas.AvarReal
import Mathlib.Tactic.NormNum
import Mathlib.Tactic.FinCases

/-! `avar` over the reals: what a prepared dictionary provides, and when `avar` answers. -/

namespace Itm

theorem curv_nonneg {c1 c2 : ℝ} (h1 : 0 ≤ c1) (h2 : 0 ≤ c2) (x1 x2 x3 de : ℝ) : 0 ≤ curv c1 c2 x1 x2 x3 de := by
  unfold curv
  simp only [npow_real]
  have e : (1.0 : ℝ) = 1 := by norm_num
  rw [e]
  positivity

theorem curv_le {c1 c2 : ℝ} (h1 : 0 ≤ c1) (h2 : 0 ≤ c2) (x1 x2 x3 de : ℝ) : curv c1 c2 x1 x2 x3 de ≤ c1 + c2 := by
  unfold curv
  simp only [npow_real]
  have e : (1.0 : ℝ) = 1 := by norm_num
  rw [e, div_le_iff₀ (by positivity)]
  have hq : c2 / (1 + ((de - x2) / x3) ^ 2) ≤ c2 := div_le_self h2 (by nlinarith [sq_nonneg ((de - x2) / x3)])
  have hq0 : 0 ≤ c2 / (1 + ((de - x2) / x3) ^ 2) := by positivity
  have hs := sq_nonneg (de / x1)
  nlinarith

theorem curv_zero (c1 c2 x1 x2 x3 : ℝ) : curv c1 c2 x1 x2 x3 0 = 0 := by
  unfold curv
  simp only [npow_real]
  simp

/-- Sign conditions on the climate constants. -/
structure ClimGood (c : Climate ℝ) : Prop where
  csm1 : 0 ≤ c.csm1
  csm2 : 0 ≤ c.csm2
  csp1 : 0 ≤ c.csp1
  csp2 : 0 ≤ c.csp2
  csd1 : 0 ≤ c.csd1
  csd2 : c.csd1 ≤ 2
  zd : 0 < c.zd
  cfm1 : 0 ≤ c.cfm1
  cfm2 : 0 ≤ c.cfm2
  cfp1 : 0 ≤ c.cfp1
  cfp2 : 0 ≤ c.cfp2

theorem pyGet_mem {β : Type} {l : List β} {i : ℤ} {b : β} (h : pyGet l i = .ok b) : b ∈ l := by
  unfold pyGet at h
  dsimp only at h
  split_ifs at h
  all_goals
    revert h
    split
    · rename_i heq
      intro h
      rw [ok_inj] at h; subst h
      exact List.mem_of_getElem? heq
    · intro h; cases h

theorem climGood {i : ℤ} {c : Climate ℝ} (h : pyGet climates i = .ok c) : ClimGood c := by
  have hm := pyGet_mem h
  simp only [climates, List.mem_cons, List.not_mem_nil, or_false] at hm
  rcases hm with rfl | rfl | rfl | rfl | rfl | rfl | rfl <;> constructor <;> norm_num

theorem freqGain_ok {c : Climate ℝ} {wn : ℝ} (h : 0 < wn) : ∃ g, freqGain c wn = .ok g := by
  unfold freqGain
  simp only [npow_real]
  have e : (1.0 : ℝ) = 1 := by norm_num
  rw [npLog_ok (by norm_num; exact h), ok_bind, e, pyDiv_ok (by positivity), ok_bind, pyDiv_ok (by positivity), ok_bind]
  exact ⟨_, rfl⟩

theorem freqGain_pos {c : Climate ℝ} {wn : ℝ} {g : FreqGain ℝ} (hc : ClimGood c) (h : freqGain c wn = .ok g) :
    0 < wn ∧ 0 ≤ g.gm ∧ 0 ≤ g.gp := by
  unfold freqGain at h
  simp only [npow_real] at h
  have e : (1.0 : ℝ) = 1 := by norm_num
  rw [e] at h
  obtain ⟨q, hq, h⟩ := bind_eq_ok.1 h
  obtain ⟨a, ha, h⟩ := bind_eq_ok.1 h
  obtain ⟨b, hb, h⟩ := bind_eq_ok.1 h
  obtain ⟨_, rfl⟩ := pyDiv_eq_ok.1 ha
  obtain ⟨_, rfl⟩ := pyDiv_eq_ok.1 hb
  obtain ⟨hq, _⟩ := npLog_eq_ok.1 hq
  rw [pure_ok, ok_inj] at h; subst h
  have := hc.cfm1; have := hc.cfm2; have := hc.cfp1; have := hc.cfp2
  refine ⟨?_, by positivity, by positivity⟩
  norm_num at hq; exact hq

theorem third_pos : (0 : ℝ) < third := by unfold third; norm_num

theorem dexaOf_ok {he : Pair ℝ} {wn : ℝ} (h0 : 0 ≤ he.x0) (h1 : 0 ≤ he.x1) (hw : 0 < wn) : ∃ x, dexaOf he wn = .ok x := by
  unfold dexaOf
  rw [mathSqrt_ok (by positivity), ok_bind, mathSqrt_ok (by positivity), ok_bind, pyDiv_ok hw.ne', ok_bind,
    pyPow_ok (by positivity), ok_bind]
  · exact ⟨_, rfl⟩
  · rintro ⟨_, h⟩; linarith [third_pos]

theorem dexaOf_pos {he : Pair ℝ} {wn x : ℝ} (hw : 0 < wn) (h : dexaOf he wn = .ok x) : 0 < x := by
  unfold dexaOf at h
  obtain ⟨a, ha, h⟩ := bind_eq_ok.1 h
  obtain ⟨b, hb, h⟩ := bind_eq_ok.1 h
  obtain ⟨q, hq, h⟩ := bind_eq_ok.1 h
  obtain ⟨c, hc, h⟩ := bind_eq_ok.1 h
  obtain ⟨_, rfl⟩ := mathSqrt_eq_ok.1 ha
  obtain ⟨_, rfl⟩ := mathSqrt_eq_ok.1 hb
  obtain ⟨_, rfl⟩ := pyDiv_eq_ok.1 hq
  obtain ⟨_, _, rfl⟩ := pyPow_eq_ok.1 hc
  rw [pure_ok, ok_inj] at h; subst h
  have : (0 : ℝ) < (575.7e12 / wn) ^ (third : ℝ) := Real.rpow_pos_of_pos (by positivity) _
  positivity

theorem effDist_ok {dist dexa : ℝ} (h : 0 < dexa) : ∃ de, effDist dist dexa = .ok de := by
  unfold effDist
  split_ifs
  · rw [pyDiv_ok h.ne']; exact ⟨_, rfl⟩
  · exact ⟨_, rfl⟩

theorem effDist_nonneg {dist dexa de : ℝ} (hd : 0 ≤ dist) (hx : 0 < dexa) (h : effDist dist dexa = .ok de) : 0 ≤ de := by
  unfold effDist at h
  split_ifs at h with h1
  · obtain ⟨_, rfl⟩ := pyDiv_eq_ok.1 h
    positivity
  · rw [pure_ok, ok_inj] at h; subst h
    norm_num at *; linarith

/-- The argument of the location deviation. -/
theorem sgl_q_nonneg {dist dh wn : ℝ} (hd : 0 ≤ dist) (hh : 0 ≤ dh) (hw : 0 ≤ wn) :
    0 ≤ (1.0 - 0.8 * PyNum.exp (-dist / 50e3)) * dh * wn := by
  simp only [rexp]
  have : Real.exp (-dist / 50e3) ≤ 1 := Real.exp_le_one_iff.2 (div_nonpos_of_nonpos_of_nonneg (by linarith) (by norm_num))
  have : (0 : ℝ) ≤ 1.0 - 0.8 * Real.exp (-dist / 50e3) := by
      generalize Real.exp (-dist / 50e3) = E at this
      norm_num; linarith
  positivity

theorem sglOf_ok {wl : Bool} {dist dh wn : ℝ} (hd : 0 ≤ dist) (hh : 0 ≤ dh) (hw : 0 ≤ wn) :
    ∃ s, sglOf wl dist dh wn = .ok s ∧ 0 ≤ s ∧ s < 10 := by
  unfold sglOf
  cases wl
  · have h := sgl_q_nonneg hd hh hw
    simp only [Bool.false_eq_true, if_false]
    generalize (1.0 - 0.8 * PyNum.exp (-dist / 50e3)) * dh * wn = q at *
    rw [pyDiv_ok (by norm_num; linarith)]
    refine ⟨_, rfl, ?_, ?_⟩
    · positivity
    · rw [div_lt_iff₀ (by norm_num; linarith)]; norm_num
  · exact ⟨0.0, rfl, by norm_num, by norm_num⟩

theorem varCoef_ok {c : Climate ℝ} {m : VarMode} {g : FreqGain ℝ} {x dist dh wn : ℝ} (hx : 0 < x)
    (hd : 0 ≤ dist) (hh : 0 ≤ dh) (hw : 0 ≤ wn) : ∃ v, varCoef c m g x dist dh wn = .ok v := by
  unfold varCoef
  obtain ⟨de, hde⟩ := effDist_ok (dist := dist) hx
  obtain ⟨s, hs, _⟩ := sglOf_ok (wl := m.wl) hd hh hw
  rw [hde, ok_bind, hs, ok_bind]
  exact ⟨_, rfl⟩

theorem varCoef_good {c : Climate ℝ} {m : VarMode} {g : FreqGain ℝ} {x dist dh wn : ℝ} {v : VarC ℝ} (hc : ClimGood c)
    (h1 : 0 ≤ g.gm) (h2 : 0 ≤ g.gp) (h : varCoef c m g x dist dh wn = .ok v) :
    VarGood c.zd v ∧ (0 < x → 0 ≤ dist → v.vs0 ≤ 64) ∧ (0 ≤ dist → 0 ≤ dh → 0 ≤ wn → 0 ≤ v.sgl ∧ v.sgl < 10) ∧
      (m.wl = true → v.sgl = 0) ∧ (m.wl = false → 0 ≤ dist → 0 < dh → 0 < wn → 0 < v.sgl) ∧
      (m.ws = true → v.vs0 = 0) ∧ (m.ws = false → 25 < v.vs0) := by
  unfold varCoef at h
  obtain ⟨de, hde, h⟩ := bind_eq_ok.1 h
  obtain ⟨s, hs, h⟩ := bind_eq_ok.1 h
  rw [pure_ok, ok_inj] at h; subst h
  have k1 := curv_nonneg hc.csm1 hc.csm2 c.ysm1 c.ysm2 c.ysm3 de
  have k2 := curv_nonneg hc.csp1 hc.csp2 c.ysp1 c.ysp2 c.ysp3 de
  have k3 := mul_nonneg k2 h2
  have E := Real.exp_pos (-de / 100e3)
  refine ⟨⟨hc.zd, mul_nonneg k1 h1, k3, mul_nonneg k3 hc.csd1, ?_, rfl, ?_⟩, ?_, ?_, ?_, ?_, ?_, ?_⟩
  · simp only
    nlinarith [hc.csd2]
  · simp only [npow_real]
    split_ifs
    · norm_num
    · positivity
  · intro hx hd
    have hde0 := effDist_nonneg hd hx hde
    simp only [npow_real, rexp]
    split_ifs
    · norm_num
    · have e1 : Real.exp (-de / 100e3) ≤ 1 :=
        Real.exp_le_one_iff.2 (div_nonpos_of_nonpos_of_nonneg (by linarith) (by norm_num))
      generalize Real.exp (-de / 100e3) = E at *
      norm_num
      nlinarith
  · intro hd hh hw
    obtain ⟨s', hs', h01⟩ := sglOf_ok (wl := m.wl) hd hh hw
    rw [hs', ok_inj] at hs
    subst hs; exact h01
  · intro hwl
    rw [hwl] at hs
    simp only [sglOf, if_true, pure_ok, ok_inj] at hs
    simp only [← hs]; norm_num
  · intro hwl hd hh hw
    rw [hwl] at hs
    simp only [sglOf, Bool.false_eq_true, if_false] at hs
    obtain ⟨_, rfl⟩ := pyDiv_eq_ok.1 hs
    simp only [rexp]
    have : Real.exp (-dist / 50e3) ≤ 1 := Real.exp_le_one_iff.2 (div_nonpos_of_nonpos_of_nonneg (by linarith) (by norm_num))
    have : (0 : ℝ) < 1.0 - 0.8 * Real.exp (-dist / 50e3) := by
      generalize Real.exp (-dist / 50e3) = E at this
      norm_num; linarith
    positivity
  · intro hws
    simp only [hws, if_true]; norm_num
  · intro hws
    simp only [hws, Bool.false_eq_true, if_false, npow_real, rexp]
    norm_num at *
    nlinarith

/-- What a successful `avar` call on a prepared dictionary computes. -/
theorem avar_real {p q : PropSt ℝ} {a zt zl zc : ℝ} (hi : CacheInv p) (h : avar zt zl zc p = .ok (a, q)) :
    ∃ c m g x v ar k md, freshSetup p = .ok (c, m, g, x, v) ∧ p.aref = some ar ∧ p.klim = some k ∧ p.mdvar = some md ∧
      m = (decodeMode md).1 ∧ ClimGood c ∧ 0 < p.wn ∧ 0 < x ∧ 0 ≤ g.gm ∧ 0 ≤ g.gp ∧
      varCoef c m g x p.dist p.dh p.wn = .ok v ∧ VarGood c.zd v ∧
      a = softR (ar - v.vmd - devR m.kdv c.zd v zt zl zc) := by
  have hv := avar_value (zt := zt) (zl := zl) (zc := zc) hi
  rw [h] at hv
  have hv : (.ok a : Py ℝ) = freshAns zt zl zc p := hv
  have hv := hv.symm
  unfold freshAns at hv
  obtain ⟨k, hk, hv⟩ := bind_eq_ok.1 hv
  obtain ⟨c, hc, hv⟩ := bind_eq_ok.1 hv
  obtain ⟨md, hmd, hv⟩ := bind_eq_ok.1 hv
  obtain ⟨g, hg, hv⟩ := bind_eq_ok.1 hv
  obtain ⟨x, hx, hv⟩ := bind_eq_ok.1 hv
  obtain ⟨v, hvc, hv⟩ := bind_eq_ok.1 hv
  obtain ⟨ar, har, hv⟩ := bind_eq_ok.1 hv
  have hcg := climGood hc
  obtain ⟨hw, g1, g2⟩ := freqGain_pos hcg hg
  have hx0 := dexaOf_pos hw hx
  have hvg := (varCoef_good hcg g1 g2 hvc).1
  rw [avarQuantile_ok hcg.zd.le hvg.vs0, ok_inj] at hv
  refine ⟨c, (decodeMode md).1, g, x, v, ar, k, md, ?_, need_eq_ok.1 har, need_eq_ok.1 hk, need_eq_ok.1 hmd, rfl, hcg, hw,
    hx0, g1, g2, hvc, hvg, hv.symm⟩
  unfold freshSetup
  rw [hk, ok_bind, hc, ok_bind, hmd, ok_bind, hg, ok_bind, hx, ok_bind, hvc, ok_bind, pure_ok]

/-- When `avar` answers. -/
theorem avar_total {p : PropSt ℝ} (hi : CacheInv p) {k md : ℤ} {ar : ℝ} (hk : p.klim = some k) (hmd : p.mdvar = some md)
    (har : p.aref = some ar) (hw : 0 < p.wn) (h0 : 0 ≤ p.he.x0) (h1 : 0 ≤ p.he.x1) (hd : 0 ≤ p.dist) (hh : 0 ≤ p.dh)
    (zt zl zc : ℝ) : ∃ a q, avar zt zl zc p = .ok (a, q) := by
  have hf : ∃ a, freshAns zt zl zc p = .ok a := by
    unfold freshAns
    have hfk := fixKlim_range k
    have hc : ∃ c, pyGet (climates : List (Climate ℝ)) (fixKlim k - 1) = .ok c := by
      rw [pyGet_nonneg (by omega) (by simp [climates]; omega)]
      exact ⟨_, rfl⟩
    obtain ⟨c, hc⟩ := hc
    obtain ⟨g, hg⟩ := freqGain_ok (c := c) hw
    obtain ⟨x, hx⟩ := dexaOf_ok h0 h1 hw
    have hx0 := dexaOf_pos hw hx
    obtain ⟨v, hv⟩ := varCoef_ok (c := c) (m := (decodeMode md).1) (g := g) hx0 hd hh hw.le
    have hcg := climGood hc
    obtain ⟨_, g1, g2⟩ := freqGain_pos hcg hg
    have hvg := (varCoef_good hcg g1 g2 hv).1
    rw [hk, need_some, ok_bind, hc, ok_bind, hmd, need_some, ok_bind]
    simp only [hg, ok_bind, hx, hv, har, need_some]
    rw [avarQuantile_ok hcg.zd.le hvg.vs0]
    exact ⟨_, rfl⟩
  obtain ⟨a, ha⟩ := hf
  have := avar_value (zt := zt) (zl := zl) (zc := zc) hi
  rw [ha] at this
  cases hav : avar zt zl zc p with
  | error e => rw [hav] at this; cases this
  | ok r => exact ⟨r.1, r.2, rfl⟩

end Itm
