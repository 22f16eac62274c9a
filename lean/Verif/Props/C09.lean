import Verif.Lemmas.AvarGood
import Verif.Lemmas.AvarFrame
import Verif.Lemmas.Demo
import Verif.Spec.Codes
import Verif.Props.C07
import Verif.Props.C08

/-! C09, C10, C12, C15: order properties of `avar` over the reals, for every dictionary reached by a history of API calls
that starts from `lvar = 5`. -/

namespace Itm.Props
open Itm Itm.Spec

/-- The answers of two calls on one prepared dictionary, with the same coefficients. -/
theorem avar_pair {p q q' : PropSt ℝ} {a a' zt zl zc zt' zl' zc' : ℝ} (hi : CacheInv p)
    (h : avar zt zl zc p = .ok (a, q)) (h' : avar zt' zl' zc' p = .ok (a', q')) :
    ∃ zd v ar md, p.mdvar = some md ∧ VarGood zd v ∧ (0 ≤ p.dist → 0 ≤ p.dh → 0 ≤ v.sgl) ∧
      a = softR (ar - v.vmd - devR (decodeMode md).1.kdv zd v zt zl zc) ∧
      a' = softR (ar - v.vmd - devR (decodeMode md).1.kdv zd v zt' zl' zc') := by
  obtain ⟨c, m, g, x, v, ar, k, md, hf, har, hk, hmd, hm, hcg, hw, hx, g1, g2, hvc, hvg, ha⟩ := avar_real hi h
  obtain ⟨c', m', g', x', v', ar', k', md', hf', har', hk', hmd', hm', _, _, _, _, _, _, _, ha'⟩ := avar_real hi h'
  rw [hf, ok_inj] at hf'
  simp only [Prod.mk.injEq] at hf'
  obtain ⟨rfl, rfl, rfl, rfl, rfl⟩ := hf'
  rw [har] at har'
  obtain rfl : ar = ar' := by simpa using har'
  refine ⟨c.zd, v, ar, md, hmd, hvg, fun hd hh => ((varCoef_good hcg g1 g2 hvc).2.2.1 hd hh hw.le).1, ?_, ?_⟩
  · rw [← hm]; exact ha
  · rw [← hm]; exact ha'

/-- The kind of variability in use. -/
theorem inMode_decode {p : PropSt ℝ} {m md : ℤ} (hi : CacheInv p) (hm : InMode p m) (hmd : p.mdvar = some md) :
    (decodeMode md).1.kdv = m := by
  rcases hm with ⟨_, md', a, b, h1, h2⟩ | ⟨hl, v, hv, hvk⟩
  · rw [hmd] at h1
    obtain rfl : md = md' := by simpa using h1
    rw [decodeMode_valid h2]
  · obtain ⟨md', h1, h2⟩ := hi.mode hl
    rw [hmd] at h1
    obtain rfl : md = md' := by simpa using h1
    rw [hv] at h2
    have : v = (decodeMode md).1 := by simpa using h2
    rw [← this]; exact hvk

/-- **C09** More confidence (a lower `zc`) never means less loss; every mode, every climate, every reachable dictionary. -/
theorem C09_avar_antitone_zc {p₀ p q q' : PropSt ℝ} {a a' zt zl zc zc' : ℝ} (h5 : p₀.lvar = 5) (hr : Reach p₀ p)
    (h : avar zt zl zc p = .ok (a, q)) (h' : avar zt zl zc' p = .ok (a', q')) (hz : zc ≤ zc') : a' ≤ a := by
  obtain ⟨zd, v, ar, md, _, g, _, rfl, rfl⟩ := avar_pair (cacheInv_reach (by omega) hr) h h'
  have := devR_mono_zc g (decodeMode md).1.kdv zt zl hz
  simp only at this
  exact softR_mono (by linarith)

/-- **C10** In the accidental, mobile and broadcast modes more time reliability never means less loss. -/
theorem C10_avar_antitone_zt {p₀ p q q' : PropSt ℝ} {a a' zt zt' zl zc : ℝ} {m : ℤ} (h5 : p₀.lvar = 5) (hr : Reach p₀ p)
    (hm : InMode p m) (hm0 : m = 1 ∨ m = 2 ∨ m = 3)
    (h : avar zt zl zc p = .ok (a, q)) (h' : avar zt' zl zc p = .ok (a', q')) (hz : zt ≤ zt') : a' ≤ a := by
  have hi := cacheInv_reach (by omega : 5 ≤ p₀.lvar) hr
  obtain ⟨zd, v, ar, md, hmd, g, _, rfl, rfl⟩ := avar_pair hi h h'
  have hk := inMode_decode hi hm hmd
  have := devR_mono_zt g (kdv := (decodeMode md).1.kdv) (by omega) zl zc hz
  simp only at this
  exact softR_mono (by linarith)

/-- **C10** In broadcast mode more location reliability never means less loss. -/
theorem C10_avar_antitone_zl {p₀ p q q' : PropSt ℝ} {a a' zt zl zl' zc : ℝ} (h5 : p₀.lvar = 5) (hr : Reach p₀ p)
    (hm : InMode p 3) (hd : 0 ≤ p.dist) (hh : 0 ≤ p.dh)
    (h : avar zt zl zc p = .ok (a, q)) (h' : avar zt zl' zc p = .ok (a', q')) (hz : zl ≤ zl') : a' ≤ a := by
  have hi := cacheInv_reach (by omega : 5 ≤ p₀.lvar) hr
  obtain ⟨zd, v, ar, md, hmd, g, hl, rfl, rfl⟩ := avar_pair hi h h'
  have hk := inMode_decode hi hm hmd
  have := devR_mono_zl g (hl hd hh) (kdv := (decodeMode md).1.kdv) (by omega) (by omega) (by omega) zt zc hz
  simp only at this
  exact softR_mono (by linarith)

/-- A prepared dictionary always answers: the hypotheses of C09, C10, C12 and C15 are met by `demo`, whatever the deviates,
in its own mode (12: mobile) and in broadcast mode. -/
theorem demo_answers (zt zl zc : ℝ) (md : ℤ) (ar : ℝ) :
    ∃ a q, avar zt zl zc { demo with mdvar := some md, aref := some ar } = .ok (a, q) :=
  avar_total (p := { demo with mdvar := some md, aref := some ar }) (cacheInv_of_five (le_refl _)) rfl rfl rfl
    (by norm_num [demo]) (by norm_num [demo]) (by norm_num [demo]) (by norm_num [demo]) (by norm_num [demo]) zt zl zc

example : ∃ a a' q q', avar 0 0 (-1) demo = .ok (a, q) ∧ avar 0 0 1 demo = .ok (a', q') ∧ a' ≤ a := by
  obtain ⟨a, q, h⟩ := demo_answers 0 0 (-1) 12 20
  obtain ⟨a', q', h'⟩ := demo_answers 0 0 1 12 20
  exact ⟨a, a', q, q', h, h', C09_avar_antitone_zc (p₀ := demo) rfl .refl h h' (by norm_num)⟩

example : InMode demo 2 := .inl ⟨by simp only [demo]; decide, 12, true, false, rfl, by decide, by decide, rfl⟩

example : ∃ a a' q q', avar 0 (-1) 0 { demo with mdvar := some 3 } = .ok (a, q) ∧
    avar 0 1 0 { demo with mdvar := some 3 } = .ok (a', q') ∧ a' ≤ a := by
  obtain ⟨a, q, h⟩ := demo_answers 0 (-1) 0 3 20
  obtain ⟨a', q', h'⟩ := demo_answers 0 1 0 3 20
  exact ⟨a, a', q, q', h, h', C10_avar_antitone_zl (p₀ := { demo with mdvar := some 3 }) rfl .refl
    (.inl ⟨by simp only [demo]; decide, 3, false, false, rfl, by decide, by decide, rfl⟩) (by norm_num [demo])
    (by norm_num [demo]) h h' (by norm_num)⟩

theorem cacheInv_aref {p : PropSt ℝ} (h : CacheInv p) (x : Option ℝ) : CacheInv { p with aref := x } :=
  ⟨h.clim, h.mode, h.freq, h.dexa, h.varc⟩

/-- **C12** With everything but `aref` fixed there is one level `c` (independent of `aref`) such that the raw value is
`aref - c`: it is returned unchanged when nonnegative, and strictly between itself and a tenth of itself when negative. -/
theorem C12_avar_soften {p₀ p : PropSt ℝ} (zt zl zc : ℝ) (h5 : p₀.lvar = 5) (hr : Reach p₀ p) :
    ∃ c : ℝ, ∀ x a q, avar zt zl zc { p with aref := some x } = .ok (a, q) →
      (0 ≤ x - c → a = x - c) ∧ (x - c < 0 → x - c < a ∧ a < (x - c) / 10) := by
  have hi := cacheInv_reach (by omega : 5 ≤ p₀.lvar) hr
  by_cases hf : ∃ s, freshSetup p = .ok s
  · obtain ⟨⟨c, m, g, x, v⟩, hf⟩ := hf
    refine ⟨v.vmd + devR m.kdv c.zd v zt zl zc, ?_⟩
    intro y a q h
    obtain ⟨c', m', g', x', v', ar', k', md', hf', har', _, _, _, _, _, _, _, _, _, _, ha'⟩ :=
      avar_real (cacheInv_aref hi _) h
    have hf' : freshSetup p = .ok (c', m', g', x', v') := hf'
    rw [hf, ok_inj] at hf'
    simp only [Prod.mk.injEq] at hf'
    obtain ⟨rfl, rfl, rfl, rfl, rfl⟩ := hf'
    obtain rfl : y = ar' := by simpa using har'
    rw [← sub_sub, ha']
    unfold softR
    constructor
    · intro h0; rw [if_neg (by linarith)]
    · intro h0
      rw [if_pos h0]
      generalize y - v.vmd - devR m.kdv c.zd v zt zl zc = r at *
      constructor
      · rw [lt_div_iff₀ (by linarith)]; nlinarith
      · rw [div_lt_div_iff₀ (by linarith) (by norm_num)]; nlinarith
  · refine ⟨0, fun x a q h => absurd ?_ hf⟩
    obtain ⟨c', m', g', x', v', ar', k', md', hf', _⟩ := avar_real (cacheInv_aref hi _) h
    exact ⟨_, hf'⟩

/-- **C12** The answer is nondecreasing in `aref`. -/
theorem C12_avar_mono_aref {p₀ p q q' : PropSt ℝ} {x x' a a' zt zl zc : ℝ} (h5 : p₀.lvar = 5) (hr : Reach p₀ p)
    (h : avar zt zl zc { p with aref := some x } = .ok (a, q))
    (h' : avar zt zl zc { p with aref := some x' } = .ok (a', q')) (hx : x ≤ x') : a ≤ a' := by
  have hi := cacheInv_reach (by omega : 5 ≤ p₀.lvar) hr
  obtain ⟨c, m, g, y, v, ar, k, md, hf, har, _, _, _, _, _, _, _, _, _, _, ha⟩ := avar_real (cacheInv_aref hi _) h
  obtain ⟨c', m', g', y', v', ar', k', md', hf', har', _, _, _, _, _, _, _, _, _, _, ha'⟩ := avar_real (cacheInv_aref hi _) h'
  have hf : freshSetup p = .ok (c, m, g, y, v) := hf
  have hf' : freshSetup p = .ok (c', m', g', y', v') := hf'
  rw [hf, ok_inj] at hf'
  simp only [Prod.mk.injEq] at hf'
  obtain ⟨rfl, rfl, rfl, rfl, rfl⟩ := hf'
  obtain rfl : x = ar := by simpa using har
  obtain rfl : x' = ar' := by simpa using har'
  rw [ha, ha']
  exact softR_mono (by linarith)

example : ∃ a a' q q', avar 0 0 1 { demo with aref := some (-40) } = .ok (a, q) ∧
    avar 0 0 1 { demo with aref := some 3 } = .ok (a', q') ∧ a ≤ a' := by
  obtain ⟨a, q, h⟩ := demo_answers 0 0 1 12 (-40)
  obtain ⟨a', q', h'⟩ := demo_answers 0 0 1 12 3
  exact ⟨a, a', q, q', h, h', C12_avar_mono_aref (p₀ := demo) rfl .refl h h' (by norm_num)⟩

/-- **C15** The variability curve vanishes at zero effective distance. -/
theorem C15_curv_zero (c1 c2 x1 x2 x3 : ℝ) : curv c1 c2 x1 x2 x3 0 = 0 := curv_zero c1 c2 x1 x2 x3

/-- **C15** For nonnegative coefficients the curve lies between 0 and `c1 + c2`. -/
theorem C15_curv_range {c1 c2 : ℝ} (h1 : 0 ≤ c1) (h2 : 0 ≤ c2) (x1 x2 x3 de : ℝ) :
    0 ≤ curv c1 c2 x1 x2 x3 de ∧ curv c1 c2 x1 x2 x3 de ≤ c1 + c2 :=
  ⟨curv_nonneg h1 h2 x1 x2 x3 de, curv_le h1 h2 x1 x2 x3 de⟩

/-- **C15** Every deviation `avar` leaves behind is nonnegative and in its range; eliminated variabilities are exactly
zero, kept ones are positive. -/
theorem C15_deviations {p₀ p q : PropSt ℝ} {a zt zl zc : ℝ} (h5 : p₀.lvar = 5) (hr : Reach p₀ p)
    (h : avar zt zl zc p = .ok (a, q)) (hd : 0 ≤ p.dist) (hh : 0 ≤ p.dh) :
    ∃ v m, q.varc = some v ∧ q.vmode = some m ∧ 0 ≤ v.sgtm ∧ 0 ≤ v.sgtp ∧ 0 ≤ v.sgtd ∧ 0 ≤ v.sgl ∧ v.sgl < 10 ∧
      0 ≤ v.vs0 ∧ v.vs0 ≤ 64 ∧ (m.wl = true → v.sgl = 0) ∧ (m.wl = false → 0 < p.dh → 0 < v.sgl) ∧
      (m.ws = true → v.vs0 = 0) ∧ (m.ws = false → 25 < v.vs0) := by
  have hi := cacheInv_reach (by omega : 5 ≤ p₀.lvar) hr
  obtain ⟨c, m, g, x, v, ar, k, md, hf, har, hk, hmd, hm, hcg, hw, hx, g1, g2, hvc, hvg, ha⟩ := avar_real hi h
  obtain ⟨_, c', m', g', x', v', kw, lv, hf', _, hq⟩ := avar_state hi h
  rw [hf, ok_inj] at hf'
  simp only [Prod.mk.injEq] at hf'
  obtain ⟨rfl, rfl, rfl, rfl, rfl⟩ := hf'
  obtain ⟨_, t1, t2, t3, t4, t5, t6⟩ := varCoef_good hcg g1 g2 hvc
  have s := t2 hd hh hw.le
  exact ⟨v, m, by rw [hq], by rw [hq], hvg.sgtm, hvg.sgtp, hvg.sgtd, s.1, s.2, hvg.vs0, t1 hx hd, t3,
    fun h1 h2 => t4 h1 hd h2 hw, t5, t6⟩

example : ∃ a q, avar 1 0 (-1) demo = .ok (a, q) ∧ (0 : ℝ) ≤ demo.dist ∧ (0 : ℝ) < demo.dh := by
  obtain ⟨a, q, h⟩ := demo_answers 1 0 (-1) 12 20
  exact ⟨a, q, h, by norm_num [demo], by norm_num [demo]⟩

end Itm.Props
