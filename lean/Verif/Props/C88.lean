import Verif.Props.C56
import Verif.Lemmas.AvarRound

/-! C88: how the quantiles depend on the reference attenuation, on the kind of variability and on the eliminated components. -/

namespace Itm.Spec
open Itm

/-- Two dictionaries describe the same link in the same climate, with the same reference attenuation; the mode of variability may differ. -/
structure SameLink (p p' : PropSt ℝ) : Prop where
  klim : p'.klim = p.klim
  dist : p'.dist = p.dist
  dh : p'.dh = p.dh
  he : p'.he = p.he
  wn : p'.wn = p.wn
  aref : p'.aref = p.aref

/-- `m'` spreads at least as much as `m` when all levels are equal: single message ≤ accidental, mobile ≤ broadcast. -/
def Wider (m m' : ℤ) : Prop := m = m' ∨ m = 0 ∨ m' = 3

end Itm.Spec

namespace Itm.Props
open Itm Itm.Spec

theorem softR_lower {x y : ℝ} (h : x ≤ y) : (y - x) / 10 ≤ softR y - softR x := by
  have hneg : ∀ c : ℝ, c < 0 → softR c = c / 10 - 261 / 100 + 7569 / 100 / (29 - 10 * c) := by
    intro c hc
    have : 29 - 10 * c ≠ 0 := by linarith
    unfold softR
    rw [if_pos hc, div_eq_iff this, add_mul, div_mul_cancel₀ _ this]
    ring
  have hpos : ∀ c : ℝ, ¬ c < 0 → softR c = c := fun c hc => by unfold softR; rw [if_neg hc]
  by_cases hy : y < 0
  · rw [hneg x (by linarith), hneg y hy]
    have k : (29 - 10 * y) ≤ 29 - 10 * x := by linarith
    have k2 : 7569 / 100 / (29 - 10 * x) ≤ 7569 / 100 / (29 - 10 * y) := div_le_div_of_nonneg_left (by norm_num) (by linarith) k
    linarith
  · rw [hpos y hy]
    by_cases hx : x < 0
    · have := hneg x hx
      have k3 : softR x ≤ x / 10 := by
        rw [this]
        have : 7569 / 100 / (29 - 10 * x) ≤ 261 / 100 := by
          rw [div_le_iff₀ (by linarith)]; nlinarith
        linarith
      linarith
    · rw [hpos x hx]; linarith

/-- What an answered call says about the formula. -/
theorem avar_data {p₀ p q : PropSt ℝ} {a zt zl zc : ℝ} {md m : ℤ} {noLoc noSit : Bool} (h5 : p₀.lvar = 5) (hr : Reach p₀ p)
    (hmd : p.mdvar = some md) (hm : ModeCode md m noLoc noSit) (h : avar zt zl zc p = .ok (a, q)) :
    ∃ k ar, p.klim = some k ∧ p.aref = some ar ∧ 0 < p.wn ∧
      (∀ z, 0 ≤ sigmaT (fixKlim k) (effectiveDist p.dist p.he.x0 p.he.x1 p.wn) p.wn z) ∧
      a = softR (ar - climCurve (fixKlim k) 0 (effectiveDist p.dist p.he.x0 p.he.x1 p.wn) -
        deviation (fixKlim k) m noLoc noSit p.dist p.dh (effectiveDist p.dist p.he.x0 p.he.x1 p.wn) p.wn zt zl zc) := by
  obtain ⟨c, m', g, x, v, ar, k, md', hf, har, hk, hmd', hm', hcg, hw, hx, g1, g2, hvc, hvg, rfl⟩ :=
    avar_real (cacheInv_reach (by omega) hr) h
  rw [hmd] at hmd'
  obtain rfl := Option.some.inj hmd'
  have hc : ClimateCode (fixKlim k) := by
    unfold fixKlim; split_ifs with h
    · exact ⟨by decide, by decide⟩
    · unfold ClimateCode; omega
  obtain ⟨h1, h2, h3, h4⟩ := freshSetup_formula hk rfl hc hf
  rw [decodeMode_valid hm] at hm'
  subst hm'
  refine ⟨k, ar, hk, har, hw, ?_, ?_⟩
  · intro z
    rw [← h2]
    unfold sgtR
    split_ifs with a1 a2
    · exact hvg.sgtm
    · exact hvg.sgtp
    · have hz : 0 < z := by linarith [hvg.zdp]
      rw [hvg.tgtd, show v.sgtd + (v.sgtp - v.sgtd) * c.zd / z = (v.sgtd * (z - c.zd) + v.sgtp * c.zd) / z by field_simp; ring]
      exact div_nonneg (add_nonneg (mul_nonneg hvg.sgtd (by linarith)) (mul_nonneg hvg.sgtp hvg.zdp.le)) hz.le
  · rw [devR_formula h2 h3 h4, h1]

theorem sigmaL_nonneg {noLoc : Bool} {d dh w : ℝ} (hd : 0 ≤ d) (hh : 0 ≤ dh) (hw : 0 < w) : 0 ≤ sigmaL noLoc d dh w := by
  unfold sigmaL
  split_ifs
  · exact le_rfl
  · have e : Real.exp (-d / 50e3) ≤ 1 := Real.exp_le_one_iff.2 (div_nonpos_of_nonpos_of_nonneg (by linarith) (by norm_num))
    have k : 0 ≤ w * (dh * (1 - 0.8 * Real.exp (-d / 50e3))) := mul_nonneg hw.le (mul_nonneg hh (by linarith))
    dsimp only
    positivity

theorem sigmaL_elim {a b : Bool} (hab : b = true → a = true) {d dh w : ℝ} (hd : 0 ≤ d) (hh : 0 ≤ dh) (hw : 0 < w) :
    sigmaL a d dh w ≤ sigmaL b d dh w := by
  cases a <;> cases b
  · exact le_rfl
  · exact absurd (hab rfl) (by decide)
  · show 0 ≤ _
    exact sigmaL_nonneg hd hh hw
  · exact le_rfl

theorem situationVar_nonneg (noSit : Bool) (de yt yl zc : ℝ) : 0 ≤ situationVar noSit de yt yl zc := by
  unfold situationVar
  split_ifs <;> positivity

theorem situationVar_elim {a b : Bool} (hab : b = true → a = true) {l l' : ℝ} (h0 : 0 ≤ l) (hl : l ≤ l') (de yt z zc : ℝ) :
    situationVar a de yt (l * z) zc ≤ situationVar b de yt (l' * z) zc := by
  unfold situationVar
  have h1 : (l * z) ^ 2 / (24 + zc ^ 2) ≤ (l' * z) ^ 2 / (24 + zc ^ 2) := by
    refine div_le_div_of_nonneg_right ?_ (by positivity)
    rw [mul_pow, mul_pow]
    exact mul_le_mul_of_nonneg_right (pow_le_pow_left₀ h0 hl 2) (sq_nonneg z)
  have h2 : (if a = true then 0 else (5 + 3 * Real.exp (-de / 100e3)) ^ 2) ≤ (if b = true then 0 else (5 + 3 * Real.exp (-de / 100e3)) ^ 2) := by
    cases a <;> cases b
    · exact le_rfl
    · exact absurd (hab rfl) (by decide)
    · simp only [if_true, Bool.false_eq_true, if_false]; positivity
    · exact le_rfl
  linarith

/-- Eliminating components brings the deviation nearer to zero. -/
theorem deviation_elim {a b a' b' : Bool} (ha : a' = true → a = true) (hb : b' = true → b = true) (k m : ℤ) {d dh w : ℝ} (de : ℝ)
    (hd : 0 ≤ d) (hh : 0 ≤ dh) (hw : 0 < w) {zt zl zc : ℝ} :
    (zt ≤ 0 → zl ≤ 0 → zc ≤ 0 → deviation k m a' b' d dh de w zt zl zc ≤ deviation k m a b d dh de w zt zl zc) ∧
    (0 ≤ zt → 0 ≤ zl → 0 ≤ zc → deviation k m a b d dh de w zt zl zc ≤ deviation k m a' b' d dh de w zt zl zc) := by
  have l0 := sigmaL_nonneg (noLoc := a) hd hh hw
  have l1 := sigmaL_elim ha hd hh hw
  have l2 := pow_le_pow_left₀ l0 l1 2
  unfold deviation
  dsimp only
  generalize sigmaL a d dh w = l at *
  generalize sigmaL a' d dh w = l' at *
  have V := fun yt z => Real.sqrt_le_sqrt (situationVar_elim hb l0 l1 de yt z zc)
  have W := fun yt z => situationVar_elim hb l0 l1 de yt z zc
  split_ifs
  · have h := Real.sqrt_le_sqrt (show sigmaT k de w zc ^ 2 + l ^ 2 + situationVar b de (sigmaT k de w zc * zc) (l * zc) zc ≤
      sigmaT k de w zc ^ 2 + l' ^ 2 + situationVar b' de (sigmaT k de w zc * zc) (l' * zc) zc by
        linarith [W (sigmaT k de w zc * zc) zc])
    exact ⟨fun _ _ hz => mul_le_mul_of_nonpos_right h hz, fun _ _ hz => mul_le_mul_of_nonneg_right h hz⟩
  · have h := Real.sqrt_le_sqrt (show l ^ 2 + situationVar b de (sigmaT k de w zt * zt) (l * zc) zc ≤
      l' ^ 2 + situationVar b' de (sigmaT k de w zt * zt) (l' * zc) zc by linarith [W (sigmaT k de w zt * zt) zc])
    exact ⟨fun _ _ hz => by linarith [mul_le_mul_of_nonpos_right h hz], fun _ _ hz => by linarith [mul_le_mul_of_nonneg_right h hz]⟩
  · have h := Real.sqrt_le_sqrt (show sigmaT k de w zt ^ 2 + l ^ 2 ≤ sigmaT k de w zt ^ 2 + l' ^ 2 by linarith)
    have h' := V (sigmaT k de w zt * zt) zt
    exact ⟨fun ht _ hz => add_le_add (mul_le_mul_of_nonpos_right h ht) (mul_le_mul_of_nonpos_right h' hz),
      fun ht _ hz => add_le_add (mul_le_mul_of_nonneg_right h ht) (mul_le_mul_of_nonneg_right h' hz)⟩
  · have h' := V (sigmaT k de w zt * zt) zl
    exact ⟨fun _ hl hz => by linarith [mul_le_mul_of_nonpos_right l1 hl, mul_le_mul_of_nonpos_right h' hz],
      fun _ hl hz => by linarith [mul_le_mul_of_nonneg_right l1 hl, mul_le_mul_of_nonneg_right h' hz]⟩

theorem sqrt_tri {x y : ℝ} (hx : 0 ≤ x) (hy : 0 ≤ y) : √(x ^ 2 + y) ≤ x + √y := by
  rw [Real.sqrt_le_left (by positivity)]
  have := Real.sq_sqrt hy
  nlinarith [mul_nonneg hx (Real.sqrt_nonneg y)]

/-- With one deviate everywhere the deviation is the deviate times a factor that grows along `Wider`. -/
theorem deviation_wider {m m' : ℤ} (hm : 0 ≤ m ∧ m ≤ 3) (hm' : 0 ≤ m' ∧ m' ≤ 3) (hw' : Wider m m') (k : ℤ) (a b : Bool)
    {d dh de w : ℝ} (hd : 0 ≤ d) (hh : 0 ≤ dh) (hw : 0 < w) (hs : ∀ z, 0 ≤ sigmaT k de w z) (z : ℝ) :
    (z ≤ 0 → deviation k m' a b d dh de w z z z ≤ deviation k m a b d dh de w z z z) ∧
    (0 ≤ z → deviation k m a b d dh de w z z z ≤ deviation k m' a b d dh de w z z z) := by
  have l0 := sigmaL_nonneg (noLoc := a) hd hh hw
  have s0 := hs z
  have key : ∃ f : ℤ → ℝ, (∀ i, 0 ≤ i → i ≤ 3 → deviation k i a b d dh de w z z z = f i * z) ∧ f 0 ≤ f 1 ∧ f 0 ≤ f 2 ∧ f 1 ≤ f 3 ∧ f 2 ≤ f 3 := by
    generalize hL : sigmaL a d dh w = l at *
    generalize hS : sigmaT k de w z = s at *
    have v0 := situationVar_nonneg b de (s * z) (l * z) z
    generalize hV : situationVar b de (s * z) (l * z) z = v at *
    refine ⟨fun i => if i = 0 then √(s ^ 2 + l ^ 2 + v) else if i = 1 then s + √(l ^ 2 + v) else if i = 2 then √(s ^ 2 + l ^ 2) + √v
      else s + l + √v, ?_, ?_, ?_, ?_, ?_⟩
    · intro i _ _
      unfold deviation
      simp only [hL, hS, hV]
      split_ifs <;> ring
    · norm_num
      rw [add_assoc]
      exact sqrt_tri s0 (by positivity)
    · norm_num
      have := sqrt_tri (Real.sqrt_nonneg (s ^ 2 + l ^ 2)) v0
      rwa [Real.sq_sqrt (by positivity)] at this
    · norm_num
      have := sqrt_tri l0 v0
      linarith
    · norm_num
      have := sqrt_tri s0 (sq_nonneg l)
      rw [Real.sqrt_sq l0] at this
      linarith
  obtain ⟨f, hf, h1, h2, h3, h4⟩ := key
  rw [hf m hm.1 hm.2, hf m' hm'.1 hm'.2]
  have hle : f m ≤ f m' := by
    unfold Wider at hw'
    have c1 : m = 0 ∨ m = 1 ∨ m = 2 ∨ m = 3 := by omega
    have c2 : m' = 0 ∨ m' = 1 ∨ m' = 2 ∨ m' = 3 := by omega
    rcases c1 with rfl | rfl | rfl | rfl <;> rcases c2 with rfl | rfl | rfl | rfl <;>
      first | exact le_rfl | assumption | exact h1.trans h3 | (exfalso; omega)
  exact ⟨fun hz => mul_le_mul_of_nonpos_right hle hz, fun hz => mul_le_mul_of_nonneg_right hle hz⟩

/-- **C88** Raising the reference attenuation by `Δ` raises every quantile by at least a tenth of `Δ` and by at most `Δ`. -/
theorem C88_aref {p₀ p q q' : PropSt ℝ} {x x' a a' zt zl zc : ℝ} (h5 : p₀.lvar = 5) (hr : Reach p₀ p)
    (h : avar zt zl zc { p with aref := some x } = .ok (a, q)) (h' : avar zt zl zc { p with aref := some x' } = .ok (a', q'))
    (hx : x ≤ x') : (x' - x) / 10 ≤ a' - a ∧ a' - a ≤ x' - x := by
  have hi := cacheInv_reach (by omega : 5 ≤ p₀.lvar) hr
  obtain ⟨c, m, g, y, v, ar, k, md, hf, har, _, _, _, _, _, _, _, _, _, _, ha⟩ := avar_real (cacheInv_aref hi _) h
  obtain ⟨c', m', g', y', v', ar', k', md', hf', har', _, _, _, _, _, _, _, _, _, _, ha'⟩ := avar_real (cacheInv_aref hi _) h'
  have hf : freshSetup p = .ok (c, m, g, y, v) := hf
  have hf' : freshSetup p = .ok (c', m', g', y', v') := hf'
  rw [hf, ok_inj] at hf'
  simp only [Prod.mk.injEq] at hf'
  obtain ⟨rfl, rfl, rfl, rfl, rfl⟩ := hf'
  obtain rfl : x = ar := by simpa using har
  obtain rfl : x' = ar' := by simpa using har'
  rw [ha, ha']
  generalize devR m.kdv c.zd v zt zl zc = D
  have hle : x - v.vmd - D ≤ x' - v.vmd - D := by linarith
  have h1 := softR_lower hle
  have h2 := (le_abs_self _).trans (softR_lip (x' - v.vmd - D) (x - v.vmd - D))
  rw [abs_of_nonneg (by linarith)] at h2
  exact ⟨by linarith, by linarith⟩

/-- **C88** At the median the kind of variability and the eliminated components do not matter. -/
theorem C88_median {p₀ p p₀' p' q q' : PropSt ℝ} {a a' : ℝ} {md m md' m' : ℤ} {nl ns nl' ns' : Bool} (h5 : p₀.lvar = 5)
    (hr : Reach p₀ p) (h5' : p₀'.lvar = 5) (hr' : Reach p₀' p') (hs : SameLink p p') (hmd : p.mdvar = some md)
    (hm : ModeCode md m nl ns) (hmd' : p'.mdvar = some md') (hm' : ModeCode md' m' nl' ns') (h : avar 0 0 0 p = .ok (a, q))
    (h' : avar 0 0 0 p' = .ok (a', q')) : a' = a := by
  obtain ⟨k, ar, hk, har, _, _, ha⟩ := avar_data h5 hr hmd hm h
  obtain ⟨k', ar', hk', har', _, _, ha'⟩ := avar_data h5' hr' hmd' hm' h'
  rw [hs.klim, hk] at hk'
  rw [hs.aref, har] at har'
  obtain rfl := Option.some.inj hk'
  obtain rfl := Option.some.inj har'
  rw [hs.dist, hs.dh, hs.he, hs.wn] at ha'
  have z : ∀ (m : ℤ) (a b : Bool) (k : ℤ) (d dh de w : ℝ), deviation k m a b d dh de w 0 0 0 = 0 := by
    intro m a b k d dh de w
    unfold deviation
    simp
  rw [ha, ha', z, z]

/-- **C88** Eliminating location or situation variability never widens the spread: at levels on the safe side of the median (all deviates
`≤ 0`) the loss is not larger than without the elimination, at levels on the other side it is not smaller. -/
theorem C88_eliminate {p₀ p p₀' p' q q' : PropSt ℝ} {a a' zt zl zc : ℝ} {md m md' : ℤ} {nl ns nl' ns' : Bool} (h5 : p₀.lvar = 5)
    (hr : Reach p₀ p) (h5' : p₀'.lvar = 5) (hr' : Reach p₀' p') (hs : SameLink p p') (hd : 0 ≤ p.dist) (hh : 0 ≤ p.dh)
    (hmd : p.mdvar = some md) (hm : ModeCode md m nl ns) (hmd' : p'.mdvar = some md') (hm' : ModeCode md' m nl' ns')
    (hl : nl' = true → nl = true) (hsi : ns' = true → ns = true) (h : avar zt zl zc p = .ok (a, q))
    (h' : avar zt zl zc p' = .ok (a', q')) :
    (zt ≤ 0 → zl ≤ 0 → zc ≤ 0 → a ≤ a') ∧ (0 ≤ zt → 0 ≤ zl → 0 ≤ zc → a' ≤ a) := by
  obtain ⟨k, ar, hk, har, hw, _, ha⟩ := avar_data h5 hr hmd hm h
  obtain ⟨k', ar', hk', har', _, _, ha'⟩ := avar_data h5' hr' hmd' hm' h'
  rw [hs.klim, hk] at hk'
  rw [hs.aref, har] at har'
  obtain rfl := Option.some.inj hk'
  obtain rfl := Option.some.inj har'
  rw [hs.dist, hs.dh, hs.he, hs.wn] at ha'
  obtain ⟨d1, d2⟩ := deviation_elim (zt := zt) (zl := zl) (zc := zc) hl hsi (fixKlim k) m
    (effectiveDist p.dist p.he.x0 p.he.x1 p.wn) hd hh hw
  rw [ha, ha']
  exact ⟨fun h1 h2 h3 => softR_mono (by linarith [d1 h1 h2 h3]), fun h1 h2 h3 => softR_mono (by linarith [d2 h1 h2 h3])⟩

/-- **C88** With the same level for time, location and situation, the single message mode spreads least and the broadcast mode most, with the
accidental and the mobile mode in between. -/
theorem C88_kinds {p₀ p p₀' p' q q' : PropSt ℝ} {a a' z : ℝ} {md m md' m' : ℤ} {nl ns : Bool} (h5 : p₀.lvar = 5) (hr : Reach p₀ p)
    (h5' : p₀'.lvar = 5) (hr' : Reach p₀' p') (hs : SameLink p p') (hd : 0 ≤ p.dist) (hh : 0 ≤ p.dh) (hmd : p.mdvar = some md)
    (hm : ModeCode md m nl ns) (hmd' : p'.mdvar = some md') (hm' : ModeCode md' m' nl ns) (hw : Wider m m')
    (h : avar z z z p = .ok (a, q)) (h' : avar z z z p' = .ok (a', q')) : (z ≤ 0 → a ≤ a') ∧ (0 ≤ z → a' ≤ a) := by
  obtain ⟨k, ar, hk, har, hw0, hsig, ha⟩ := avar_data h5 hr hmd hm h
  obtain ⟨k', ar', hk', har', _, _, ha'⟩ := avar_data h5' hr' hmd' hm' h'
  rw [hs.klim, hk] at hk'
  rw [hs.aref, har] at har'
  obtain rfl := Option.some.inj hk'
  obtain rfl := Option.some.inj har'
  rw [hs.dist, hs.dh, hs.he, hs.wn] at ha'
  obtain ⟨d1, d2⟩ := deviation_wider ⟨hm.1, hm.2.1⟩ ⟨hm'.1, hm'.2.1⟩ hw (fixKlim k) nl ns hd hh hw0 hsig z
  rw [ha, ha']
  exact ⟨fun h1 => softR_mono (by linarith [d1 h1]), fun h1 => softR_mono (by linarith [d2 h1])⟩

/-! The demo dictionary in several modes meets the hypotheses. -/

example : ∃ a a' q q', avar (-1) 0 (-1.5) { demo with aref := some 3 } = .ok (a, q) ∧
    avar (-1) 0 (-1.5) { demo with aref := some 7 } = .ok (a', q') ∧ 0.4 ≤ a' - a ∧ a' - a ≤ 4 := by
  obtain ⟨a, q, h⟩ := demo_answers (-1) 0 (-1.5) 12 3
  obtain ⟨a', q', h'⟩ := demo_answers (-1) 0 (-1.5) 12 7
  have := C88_aref (p₀ := demo) (p := demo) rfl .refl h h' (by norm_num)
  exact ⟨a, a', q, q', h, h', by norm_num at this ⊢; exact this.1, by norm_num at this ⊢; exact this.2⟩

/-- Single message with nothing eliminated and broadcast with both components eliminated agree at the median. -/
example : ∃ a q q', avar 0 0 0 { demo with mdvar := some 0, aref := some 20 } = .ok (a, q) ∧
    avar 0 0 0 { demo with mdvar := some 33, aref := some 20 } = .ok (a, q') := by
  obtain ⟨a, q, h⟩ := demo_answers 0 0 0 0 20
  obtain ⟨a', q', h'⟩ := demo_answers 0 0 0 33 20
  have := C88_median (p₀ := { demo with mdvar := some 0, aref := some 20 }) (p₀' := { demo with mdvar := some 33, aref := some 20 })
    (m := 0) (nl := false) (ns := false) (m' := 3) (nl' := true) (ns' := true) rfl .refl rfl .refl ⟨rfl, rfl, rfl, rfl, rfl, rfl⟩ rfl
    ⟨by decide, by decide, rfl⟩ rfl ⟨by decide, by decide, rfl⟩ h h'
  subst this
  exact ⟨_, q, q', h, h'⟩

/-- Mobile mode with location variability eliminated (the shipped setting, 12) against mobile mode with everything (2). -/
example : ∃ a a' q q', avar (-1) 0 (-1.5) { demo with mdvar := some 12, aref := some 20 } = .ok (a, q) ∧
    avar (-1) 0 (-1.5) { demo with mdvar := some 2, aref := some 20 } = .ok (a', q') ∧ a ≤ a' := by
  obtain ⟨a, q, h⟩ := demo_answers (-1) 0 (-1.5) 12 20
  obtain ⟨a', q', h'⟩ := demo_answers (-1) 0 (-1.5) 2 20
  exact ⟨a, a', q, q', h, h', (C88_eliminate (p₀ := { demo with mdvar := some 12, aref := some 20 })
    (p₀' := { demo with mdvar := some 2, aref := some 20 }) (m := 2) (nl := true) (ns := false) (nl' := false) (ns' := false)
    rfl .refl rfl .refl ⟨rfl, rfl, rfl, rfl, rfl, rfl⟩ (by norm_num [demo]) (by norm_num [demo]) rfl ⟨by decide, by decide, rfl⟩ rfl
    ⟨by decide, by decide, rfl⟩ (by decide) (by decide) h h').1 (by norm_num) le_rfl (by norm_num)⟩

/-- Mobile against broadcast at one level. -/
example : ∃ a a' q q', avar (-1) (-1) (-1) { demo with mdvar := some 2, aref := some 20 } = .ok (a, q) ∧
    avar (-1) (-1) (-1) { demo with mdvar := some 3, aref := some 20 } = .ok (a', q') ∧ a ≤ a' := by
  obtain ⟨a, q, h⟩ := demo_answers (-1) (-1) (-1) 2 20
  obtain ⟨a', q', h'⟩ := demo_answers (-1) (-1) (-1) 3 20
  exact ⟨a, a', q, q', h, h', (C88_kinds (p₀ := { demo with mdvar := some 2, aref := some 20 })
    (p₀' := { demo with mdvar := some 3, aref := some 20 }) (m := 2) (m' := 3) (nl := false) (ns := false)
    rfl .refl rfl .refl ⟨rfl, rfl, rfl, rfl, rfl, rfl⟩ (by norm_num [demo]) (by norm_num [demo]) rfl ⟨by decide, by decide, rfl⟩ rfl
    ⟨by decide, by decide, rfl⟩ (by unfold Wider; decide) h h').1 (by norm_num)⟩

end Itm.Props
