import Verif.Lemmas.Fresh
import Verif.Spec.Leaf

/-! C29: line-of-sight attenuation. -/

namespace Itm
open Spec

/-- A pair of reals as a complex number. -/
def Cx.toC (z : Cx ℝ) : ℂ := ⟨z.re, z.im⟩

theorem toC_norm (z : Cx ℝ) : ‖z.toC‖ = z.abs := by
  rw [cxabs_real, Complex.norm_def]; rfl

theorem toC_add (z w : Cx ℝ) : (z.add w).toC = z.toC + w.toC := rfl
theorem toC_sub (z w : Cx ℝ) : (z.sub w).toC = z.toC - w.toC := rfl

theorem toC_smul (z : Cx ℝ) (t : ℝ) : (z.smul t).toC = z.toC * (t : ℂ) := by
  apply Complex.ext <;> simp [Cx.toC, Cx.smul]

theorem toC_real (t : ℝ) : Cx.toC ⟨t, 0.0⟩ = (t : ℂ) := by
  apply Complex.ext <;> simp [Cx.toC, zero_lit]

theorem toC_div {z w r : Cx ℝ} (h : Cx.div z w = .ok r) : r.toC = z.toC / w.toC := by
  rw [cxdiv_real] at h
  obtain ⟨a, ha, h⟩ := bind_eq_ok.1 h
  obtain ⟨b, hb, h⟩ := bind_eq_ok.1 h
  rw [ok_inj] at h
  obtain ⟨hn, ha⟩ := pyDiv_eq_ok.1 ha
  obtain ⟨_, hb⟩ := pyDiv_eq_ok.1 hb
  rw [← h, ha, hb]
  have e : w.normSq = Complex.normSq w.toC := rfl
  rw [e]
  apply Complex.ext
  · rw [Complex.div_re]; simp only [Cx.toC]; ring
  · rw [Complex.div_im]; simp only [Cx.toC]; ring

end Itm

namespace Itm.Props
open Itm Itm.Spec

/-- The value of `alos`. -/
theorem alos_value {p : PropSt ℝ} {l : DiffLine ℝ} {d a : ℝ} (hl : p.line = some l) (h : alos d p = .ok a) :
    a = l.wis * twoRay p.wn p.dh p.he.x0 p.he.x1 d p.zgnd.toC + (1 - l.wis) * (l.aed + l.emd * d) := by
  unfold alos alosExt at h
  simp only [hl, need, ok_bind] at h
  rw [pure_bind'] at h
  obtain ⟨pl, hp, h⟩ := bind_eq_ok.1 h
  rw [pure_ok, ok_inj] at h
  suffices hs : pl = twoRay p.wn p.dh p.he.x0 p.he.x1 d p.zgnd.toC by rw [← h, hs]; ring
  unfold alosPlane at hp
  obtain ⟨⟨r, q⟩, hr, hp⟩ := bind_eq_ok.1 hp
  obtain ⟨lg, hlg, hp⟩ := bind_eq_ok.1 hp
  rw [pure_ok, ok_inj] at hp
  rw [← hp, (npLog_eq_ok.1 hlg).2, npow_real, ← toC_norm, toC_add]
  unfold alosRay at hr
  simp only [npow_real, pyMin_real, rexp] at hr
  obtain ⟨pw, hpw, hr⟩ := bind_eq_ok.1 hr
  obtain ⟨sq, hsq, hr⟩ := bind_eq_ok.1 hr
  obtain ⟨sps, hsp, hr⟩ := bind_eq_ok.1 hr
  obtain ⟨R, hR, hr⟩ := bind_eq_ok.1 hr
  have es : sps = grazing p.he.x0 p.he.x1 d := by
    rw [(pyDiv_eq_ok.1 hsp).2, (mathSqrt_eq_ok.1 hsq).2]; rfl
  have eσ : 0.78 * ((1.0 - 0.8 * Real.exp (-d / 50e3)) * p.dh) * Real.exp (-pw) = terrainSigma (irregularity p.dh d) := by
    rw [(pyPow_eq_ok.1 hpw).2.2]
    unfold terrainSigma irregularity
    norm_num
  rw [eσ] at hr
  have eR : (R.smul (Real.exp (-(min 10.0 (p.wn * terrainSigma (irregularity p.dh d) * sps))))).toC =
      reflection p.wn (terrainSigma (irregularity p.dh d)) (grazing p.he.x0 p.he.x1 d) p.zgnd.toC := by
    rw [toC_smul, toC_div hR, toC_sub, toC_add, toC_real, es]
    unfold reflection
    norm_num
  generalize R.smul (Real.exp (-(min 10.0 (p.wn * terrainSigma (irregularity p.dh d) * sps)))) = R' at *
  have tail : ∀ {r0 : Cx ℝ}, (do
      let q ← p.wn * p.he.x0 * p.he.x1 * 2.0 /! d
      if 1.57 < q then do
          let x ← (2.4649 : ℝ) /! q
          pure (r0, 3.14 - x)
        else pure (r0, q) : Py (Cx ℝ × ℝ)) = .ok (r, q) → r = r0 ∧ q = rayPhase p.wn p.he.x0 p.he.x1 d := by
    intro r0 hr
    obtain ⟨q', hq', hr⟩ := bind_eq_ok.1 hr
    have e0 : q' = 2 * p.wn * p.he.x0 * p.he.x1 / d := by
      rw [(pyDiv_eq_ok.1 hq').2]; norm_num; ring
    unfold rayPhase
    rw [← e0]
    by_cases c : 1.57 < q'
    · rw [if_pos c] at hr ⊢
      obtain ⟨x, hx, hr⟩ := bind_eq_ok.1 hr
      rw [pure_ok, ok_inj, Prod.mk.injEq] at hr
      exact ⟨hr.1.symm, by rw [← hr.2, (pyDiv_eq_ok.1 hx).2]⟩
    · rw [if_neg c] at hr ⊢
      rw [pure_ok, ok_inj, Prod.mk.injEq] at hr
      exact ⟨hr.1.symm, hr.2.symm⟩
  obtain ⟨er, eq⟩ : r.toC = effReflection (grazing p.he.x0 p.he.x1 d)
      (reflection p.wn (terrainSigma (irregularity p.dh d)) (grazing p.he.x0 p.he.x1 d) p.zgnd.toC) ∧
      q = rayPhase p.wn p.he.x0 p.he.x1 d := by
    rw [← eR, ← es]
    unfold effReflection
    rw [toC_norm]
    have e4 : (0.25 : ℝ) = 1 / 4 := by norm_num
    by_cases c : R'.abs ^ 2 < 1 / 4 ∨ R'.abs ^ 2 < sps
    · rw [if_pos (by rw [lit_eq, e4]; exact c)] at hr
      rw [if_pos c]
      obtain ⟨x, hx, hr⟩ := bind_eq_ok.1 hr
      obtain ⟨t, ht, hr⟩ := bind_eq_ok.1 hr
      obtain ⟨t1, t2⟩ := tail (r0 := R'.smul t) hr
      refine ⟨?_, t2⟩
      rw [t1, toC_smul, (mathSqrt_eq_ok.1 ht).2, (pyDiv_eq_ok.1 hx).2]
    · rw [if_neg (by rw [lit_eq, e4]; exact c)] at hr
      rw [if_neg c]
      obtain ⟨t1, t2⟩ := tail (r0 := R') hr
      exact ⟨by rw [t1], t2⟩
  have ep : Cx.toC ⟨PyNum.cos q, -(PyNum.sin q)⟩ = Complex.exp (-(rayPhase p.wn p.he.x0 p.he.x1 d : ℂ) * Complex.I) := by
    rw [← eq, ← Complex.ofReal_neg, Complex.exp_mul_I]
    generalize hn : -q = m
    have e1 : Real.cos q = Real.cos m := by rw [← hn, Real.cos_neg]
    have e2 : -Real.sin q = Real.sin m := by rw [← hn, Real.sin_neg]
    rw [rcos, rsin, e1, e2]
    apply Complex.ext <;> simp [Cx.toC, Complex.cos_ofReal_re, Complex.sin_ofReal_re, Complex.cos_ofReal_im, Complex.sin_ofReal_im]
  rw [ep, er]
  rfl

/-- **C29** The attenuation is a blend of the two-ray attenuation (weight `wis`) and the extended diffraction line. `alos`
returns a value only, so the dictionary is unchanged. -/
theorem C29_blend {p : PropSt ℝ} {l : DiffLine ℝ} {d a : ℝ} (hl : p.line = some l) (hw : 0 ≤ l.wis ∧ l.wis ≤ 1)
    (h : alos d p = .ok a) : Blend a l.wis (twoRay p.wn p.dh p.he.x0 p.he.x1 d p.zgnd.toC) (l.aed + l.emd * d) :=
  ⟨hw.1, hw.2, alos_value hl h⟩

/-- **C29** The weight stored by the set-up is in (0, 1], and calls that reuse the set-up keep it. -/
theorem C29_weight {p q : PropSt ℝ} {d : ℝ} (hw : 0 ≤ p.wn) (hdh : 0 ≤ p.dh) (h : lrprop d p = .ok q) :
    (p.mdp ≠ 0 → ∃ l, q.line = some l ∧ 0 < l.wis ∧ l.wis ≤ 1) ∧
    (p.mdp = 0 → ∀ hh l, p.hor = some hh → p.line = some l → q.line = some l) := by
  constructor
  · intro hm
    rw [lrprop_setup hm] at h
    obtain ⟨s, hs, h⟩ := bind_eq_ok.1 h
    obtain ⟨c, _, h⟩ := bind_eq_ok.1 h
    rw [pure_ok, ok_inj] at h
    refine ⟨s.l, by rw [← h]; rfl, ?_⟩
    unfold setupC at hs
    obtain ⟨hz, _, hs⟩ := bind_eq_ok.1 hs
    obtain ⟨df, _, hs⟩ := bind_eq_ok.1 hs
    obtain ⟨l, hl, hs⟩ := bind_eq_ok.1 hs
    rw [pure_ok, ok_inj] at hs
    rw [← hs]
    unfold lineC lrLineWith at hl
    obtain ⟨_, _, hl⟩ := bind_eq_ok.1 hl
    obtain ⟨_, _, hl⟩ := bind_eq_ok.1 hl
    obtain ⟨_, _, hl⟩ := bind_eq_ok.1 hl
    obtain ⟨_, _, hl⟩ := bind_eq_ok.1 hl
    obtain ⟨w, hwis, hl⟩ := bind_eq_ok.1 hl
    rw [pure_ok, ok_inj] at hl
    rw [← hl]
    simp only
    rw [(pyDiv_eq_ok.1 hwis).2, pyMax_real]
    have k : (0 : ℝ) < 0.021 := by norm_num
    have h0 : 0 ≤ (inp p).wn * (inp p).dh / max 10e3 hz.dlsa :=
      div_nonneg (mul_nonneg hw hdh) (le_max_of_le_left (by norm_num))
    exact ⟨div_pos k (by linarith), (div_le_one (by linarith)).2 (by linarith)⟩
  · intro hm hh l hhh hl
    rw [lrprop_cont hm hhh hl] at h
    obtain ⟨c, _, h⟩ := bind_eq_ok.1 h
    rw [pure_ok, ok_inj] at h
    rw [← h]; exact hl

/-- **C29** The two-ray attenuation exceeds -6.03 dB: two rays add to less than twice the field. -/
theorem C29_two_ray_floor {p : PropSt ℝ} {l : DiffLine ℝ} {d : ℝ} (hl : p.line = some l) (h0 : 0 < p.he.x0) (h1 : 0 < p.he.x1)
    (hw : 0 < p.wn) (hdh : 0 ≤ p.dh) (hz : 0 < p.zgnd.re) (hd : 0 < d)
    (hne : ¬ (p.zgnd.re = grazing p.he.x0 p.he.x1 d ∧ p.zgnd.im = 0)) (hwis : 0 ≤ l.wis ∧ l.wis ≤ 1) :
    ∃ a, alos d p = .ok a ∧ -(4.343 * Real.log 4) < twoRay p.wn p.dh p.he.x0 p.he.x1 d p.zgnd.toC ∧
      min (-(4.343 * Real.log 4)) (l.aed + l.emd * d) ≤ a := by
  obtain ⟨r, q, hr, hr1⟩ := alosRay_ok h0 h1 hw hdh hz hd hne
  obtain ⟨pl, hp, ha⟩ := alos_ok hl h0 h1 hw hdh hz hd hne
  have hb := C29_blend hl hwis ha
  have hpl : pl = twoRay p.wn p.dh p.he.x0 p.he.x1 d p.zgnd.toC := by
    have h1 := C29_blend (p := { p with line := some { l with wis := 1 } }) (l := { l with wis := 1 }) rfl
      ⟨zero_le_one, le_rfl⟩ (a := pl) (d := d) (by
        unfold alos alosExt
        simp only [need, ok_bind, pure_bind']
        have : alosPlane d { p with line := some { l with wis := 1 } } = alosPlane d p := rfl
        rw [this, hp, ok_bind, pure_ok]
        congr 1; ring)
    have := h1.2.2
    simp only at this
    linarith
  have hfl : -(4.343 * Real.log 4) < pl := by
    unfold alosPlane at hp
    rw [hr, ok_bind] at hp
    dsimp only at hp
    rw [npow_real, abs_sq] at hp
    obtain ⟨lg, hlg, hp⟩ := bind_eq_ok.1 hp
    rw [pure_ok, ok_inj] at hp
    obtain ⟨hpos, e⟩ := npLog_eq_ok.1 hlg
    rw [← hp, e]
    have h4 : (Cx.add ⟨PyNum.cos q, -(PyNum.sin q)⟩ r).normSq < 4 := by
      rw [normSq_real] at hr1 ⊢
      simp only [Cx.add, rcos, rsin]
      have hcs := Real.sin_sq_add_cos_sq q
      have hcr : (Real.cos q * r.re - Real.sin q * r.im) ≤ (1 + (r.re * r.re + r.im * r.im)) / 2 := by
        nlinarith [sq_nonneg (Real.cos q - r.re), sq_nonneg (Real.sin q + r.im)]
      nlinarith
    have := Real.log_lt_log hpos h4
    generalize Real.log (Cx.add ⟨PyNum.cos q, -(PyNum.sin q)⟩ r).normSq = L at *
    generalize Real.log 4 = M at *
    norm_num; linarith
  refine ⟨_, ha, by rw [← hpl]; exact hfl, ?_⟩
  refine le_trans (min_le_min_right _ ?_) hb.between.1
  rw [← hpl]; exact hfl.le

/-- The smooth link is a concrete case: its set-up succeeds with weight in (0, 1], and its line-of-sight fit calls `alos`. -/
example : ∃ q : PropSt ℝ, lrprop 50000 smooth = .ok q ∧ ∃ l, q.line = some l ∧ 0 < l.wis ∧ l.wis ≤ 1 := by
  obtain ⟨q, hq⟩ := smooth_total 50000 (by norm_num)
  exact ⟨q, hq, (C29_weight (p := smooth) (by unfold smooth blank smoothIn tangentIn; norm_num)
    (by unfold smooth blank smoothIn tangentIn; norm_num) hq).1 (by decide)⟩

/-- And a concrete state meeting every hypothesis of the floor. -/
example : ∃ (p : PropSt ℝ) (l : DiffLine ℝ), p.line = some l ∧ 0 < p.he.x0 ∧ 0 < p.he.x1 ∧ 0 < p.wn ∧ 0 ≤ p.dh ∧ 0 < p.zgnd.re ∧
    (¬ (p.zgnd.re = grazing p.he.x0 p.he.x1 1000 ∧ p.zgnd.im = 0)) ∧ 0 ≤ l.wis ∧ l.wis ≤ 1 := by
  refine ⟨{ blank 1 ⟨⟨5, 5⟩, ⟨5, 5⟩, ⟨1, 1⟩, ⟨0, 0⟩, 1, 90, 301, 1e-7, ⟨2, 1⟩⟩ with line := some ⟨1, 1, 1, 1, 0.5⟩ },
    ⟨1, 1, 1, 1, 0.5⟩, rfl, ?_⟩
  simp only [blank]
  norm_num

end Itm.Props
