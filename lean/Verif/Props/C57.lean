import Verif.Spec.Reference
import Verif.Props.C20
import Verif.Props.C26
import Verif.Props.C29
import Verif.Props.C30

/-! C57: `lrprop` computes the published reference attenuation. -/

namespace Itm.Props
open Itm Itm.Spec

/-! ### Height gain and scatter functions -/

theorem fht_spec {x pk v : ℝ} (h : fht x pk = .ok v) : v = heightGain x pk := by
  unfold heightGain
  by_cases h2 : 2000 ≤ x
  · rw [if_pos h2]
    rw [C28_far h2, ok_inj] at h; exact h.symm
  rw [if_neg h2]
  by_cases h1 : 200 ≤ x
  · rw [if_pos h1]
    obtain ⟨v', w, e, b, hw, _⟩ := C28_blend (pk := pk) h1 (not_le.1 h2)
    rw [h, ok_inj] at e
    subst e
    have he : -x / 200 = -0.005 * x := by norm_num; ring
    rw [he] at hw
    dsimp only
    rw [← hw]
    exact b.2.2
  rw [if_neg h1]
  have hx := not_le.1 h1
  have hp : 0 < pk := by
    unfold fht at h
    rw [if_pos (by norm_num; exact hx)] at h
    obtain ⟨_, hl, _⟩ := bind_eq_ok.1 h
    exact (npLog_eq_ok.1 hl).1
  obtain ⟨g1, g2⟩ := C28_near hp hx
  by_cases c : pk < 1e-5 ∨ 5495 < x * (-Real.log pk) ^ 3
  · rw [if_pos c]
    obtain ⟨v', e, _, hv⟩ := g1 c
    rw [h, ok_inj] at e
    subst e
    rw [hv]
    by_cases hx1 : 1 < x
    · rw [if_pos hx1, if_pos (by linarith), max_eq_right]
      unfold nearGain
      have := Real.log_nonneg hx1.le
      norm_num; linarith
    · rw [if_neg hx1]
      by_cases h0 : 0 < x
      · rw [if_pos h0, max_eq_left]
        unfold nearGain
        have := Real.log_nonpos h0.le (not_lt.1 hx1)
        norm_num; linarith
      · rw [if_neg h0, max_self]
  · rw [if_neg c]
    rw [g2 c, ok_inj] at h
    exact h.symm

theorem ahd_spec {x a : ℝ} (h : ahd x = .ok a) : a = scatterCurve x := by
  unfold ahd at h
  dsimp only at h
  obtain ⟨l, hl, h⟩ := bind_eq_ok.1 h
  rw [pure_ok, ok_inj] at h
  rw [← h, (npLog_eq_ok.1 hl).2]
  unfold scatterCurve
  by_cases h1 : x ≤ 10000
  · rw [if_pos (by norm_num; exact h1), if_pos h1]; norm_num; ring
  · rw [if_neg (by norm_num; exact not_le.1 h1), if_neg h1]
    by_cases h2 : x ≤ 70000
    · rw [if_pos (by norm_num; exact h2), if_pos h2]; norm_num; ring
    · rw [if_neg (by norm_num; exact not_le.1 h2), if_neg h2]

theorem h0f_spec {r e v : ℝ} (h : h0f r e = .ok v) : v = scatterTable r e := by
  have hr : r ≠ 0 := fun c => (C31_total (et := e)).2 c _ h
  -- reduce to efficiencies in [1, 5]
  have hcl : h0f r (min (max e 1) 5) = .ok v := by
    rcases le_total e 1 with h1 | h1
    · rw [max_eq_right h1, min_eq_left (by norm_num), ← (C31_constant hr).1 h1]; exact h
    · rw [max_eq_left h1]
      rcases le_total e 5 with h5 | h5
      · rw [min_eq_left h5]; exact h
      · rw [min_eq_right h5, ← (C31_constant hr).2 h5]; exact h
  unfold scatterTable
  dsimp only
  have h1 : 1 ≤ min (max e 1) 5 := le_min (le_max_right _ _) (by norm_num)
  have h5 : min (max e 1) 5 ≤ 5 := min_le_right _ _
  generalize min (max e 1) 5 = x at *
  clear h
  have hf1 : (1 : ℤ) ≤ ⌊x⌋ := Int.le_floor.2 (by exact_mod_cast h1)
  have hf5 : ⌊x⌋ ≤ 5 := by
    have : ((⌊x⌋ : ℤ) : ℝ) ≤ 5 := (Int.floor_le x).trans h5
    exact_mod_cast this
  obtain ⟨k, hk⟩ : ∃ k : ℕ, ⌊x⌋ = (k : ℤ) + 1 := ⟨(⌊x⌋ - 1).toNat, by omega⟩
  have hkn : ⌊x⌋.toNat = k + 1 := by omega
  rw [hkn]
  have hlo : (k : ℝ) + 1 ≤ x := by have := Int.floor_le x; rw [hk] at this; exact_mod_cast this
  have hhi : x < (k : ℝ) + 2 := by
    have := Int.lt_floor_add_one x; rw [hk] at this; push_cast at this; linarith
  by_cases hk4 : k + 1 < 5
  · rw [C31_table hr k hk4 hlo hhi.le, ok_inj] at hcl
    rw [← hcl, Nat.add_sub_cancel]
    push_cast
    rfl
  · have hk4 : k = 4 := by omega
    subst hk4
    have hx : x = 5 := le_antisymm h5 (by norm_num at hlo; exact hlo)
    subst hx
    have := C31_table hr 3 (by norm_num) (e := 5) (by norm_num) (by norm_num)
    rw [this, ok_inj] at hcl
    rw [← hcl]
    norm_num

/-! ### The set-up -/

theorem norm_toC (z : Cx ℝ) : ‖(⟨z.re, z.im⟩ : ℂ)‖ = Real.sqrt (z.re ^ 2 + z.im ^ 2) := by
  rw [Complex.norm_def, Complex.normSq_mk]; congr 1; ring

theorem hor_spec {p : PropSt ℝ} {h : Horizon ℝ} (hh : lrHorizon p = .ok h) :
    h.dlsa = (linkOf p).dlsa ∧ h.dla = (linkOf p).dla ∧ h.tha = (linkOf p).tha := by
  unfold lrHorizon at hh
  obtain ⟨x0, g0, hh⟩ := bind_eq_ok.1 hh
  obtain ⟨d0, g1, hh⟩ := bind_eq_ok.1 hh
  obtain ⟨x1, g2, hh⟩ := bind_eq_ok.1 hh
  obtain ⟨d1, g3, hh⟩ := bind_eq_ok.1 hh
  rw [pure_ok, ok_inj] at hh
  rw [← hh]
  have e2 : (2.0 : ℝ) = 2 := by norm_num
  refine ⟨?_, rfl, ?_⟩
  · simp only [Link.dlsa, linkOf, smoothHorizon, (mathSqrt_eq_ok.1 g1).2, (mathSqrt_eq_ok.1 g3).2, (pyDiv_eq_ok.1 g0).2,
      (pyDiv_eq_ok.1 g2).2, e2]
  · simp only [Link.tha, linkOf, Link.dla, pyMax_real]

theorem diff_spec {p : PropSt ℝ} {h : Horizon ℝ} {c : DiffC ℝ} (hh : lrHorizon p = .ok h)
    (hc : diffC p.mdp (inp p) h = .ok c) :
    c.qk = (linkOf p).zInv ∧ c.wd1 = (linkOf p).wd1 ∧ c.xd1 = (linkOf p).xd1 ∧
      c.afo = clutter p.wn p.dh p.hg.x0 p.hg.x1 h.dlsa ∧ c.xht = (linkOf p).xht ∧ c.aht = (linkOf p).aht ∧
      p.he.x0 ≠ 0 ∧ p.gme ≠ 0 := by
  obtain ⟨e1, e2, e3⟩ := hor_spec hh
  have hr : adiff 0 { p with hor := some h } = .ok (0, { p with hor := some h, diff := some c }) := by
    unfold adiff
    rw [if_pos (by rw [pyEq_real, zero_lit]), adiffInit_eq (p := { p with hor := some h }) rfl]
    rw [show inp { p with hor := some h } = inp p from rfl, show ({ p with hor := some h } : PropSt ℝ).mdp = p.mdp from rfl, hc,
      ok_bind, pure_ok, zero_lit]
  obtain ⟨g1, g2, g3, g4, g5, f0, f1, g6, g7, g8⟩ := C26_setup_values (p := { p with hor := some h }) rfl hr rfl
  simp only at g1 g2 g3 g4 g5 g6 g7 g8
  have hz : c.qk = (linkOf p).zInv := by
    rw [g1]; unfold Link.zInv linkOf; rw [norm_toC]
  have hne : p.he.x0 ≠ 0 := by
    unfold adiff adiffInit at hr
    rw [if_pos (by rw [pyEq_real, zero_lit])] at hr
    simp only [need, ok_bind] at hr
    obtain ⟨_, _, hr⟩ := bind_eq_ok.1 hr
    obtain ⟨_, _, hr⟩ := bind_eq_ok.1 hr
    obtain ⟨_, _, hr⟩ := bind_eq_ok.1 hr
    obtain ⟨_, _, hr⟩ := bind_eq_ok.1 hr
    obtain ⟨_, _, hr⟩ := bind_eq_ok.1 hr
    obtain ⟨_, _, hr⟩ := bind_eq_ok.1 hr
    obtain ⟨_, ht, hr⟩ := bind_eq_ok.1 hr
    unfold adiffTerm at ht
    obtain ⟨_, ht, _⟩ := bind_eq_ok.1 ht
    exact (pyDiv_eq_ok.1 ht).1
  have hgme : p.gme ≠ 0 := by
    unfold lrHorizon at hh
    obtain ⟨_, g, _⟩ := bind_eq_ok.1 hh
    exact (pyDiv_eq_ok.1 g).1
  refine ⟨hz, ?_, ?_, g4, ?_, ?_, hne, hgme⟩
  · rw [g2]; unfold Link.wd1 linkOf
    simp only [decide_eq_true_eq]
  · rw [g3, e2, e3]; rfl
  · rw [g5, hz]; rfl
  · rw [g8, fht_spec g6, fht_spec g7, hz]; rfl

theorem adiff_spec {p : PropSt ℝ} {h : Horizon ℝ} {c : DiffC ℝ} (hh : lrHorizon p = .ok h)
    (hc : diffC p.mdp (inp p) h = .ok c) {d a : ℝ} (hd : d ≠ 0) (ha : adiffC p.mdp (inp p) h c d = .ok a) :
    a = (linkOf p).diffraction d := by
  obtain ⟨e1, e2, e3⟩ := hor_spec hh
  obtain ⟨g1, g2, g3, g4, g5, g6, _, _⟩ := diff_spec hh hc
  unfold adiffC at ha
  obtain ⟨⟨a', q⟩, hq, ha⟩ := bind_eq_ok.1 ha
  dsimp only at ha
  rw [pure_ok, ok_inj] at ha
  subst ha
  obtain ⟨_, w, _, hw, hb⟩ := C26_blend (h := h) (c := c) hd rfl rfl hq
  have hv := hb.2.2
  rw [hw] at hv
  unfold Link.diffraction
  dsimp only
  have hv' : a' - c.afo = diffWeight p.wn p.dh c.wd1 c.xd1 d *
        roundedEarth p.wn (d - h.dla) (h.tha + d * p.gme) c.qk c.xht c.aht +
      (1 - diffWeight p.wn p.dh c.wd1 c.xd1 d) * doubleKnife p.wn (d - h.dla) (h.tha + d * p.gme) p.dl.x0 p.dl.x1 := hv
  rw [g1, g2, g3, g4, g5, g6, e1, e2, e3] at hv'
  have : a' = _ := eq_add_of_sub_eq hv'
  rw [this]; rfl

/-- The diffraction line and the weight of the two-ray attenuation. -/
theorem line_spec {p : PropSt ℝ} {s : Setup ℝ} (hs : setupC p.mdp (inp p) = .ok s) :
    lrHorizon p = .ok s.h ∧ (s.h.dlsa = (linkOf p).dlsa ∧ s.h.dla = (linkOf p).dla ∧ s.h.tha = (linkOf p).tha) ∧
    s.l.xae = (linkOf p).xae ∧ s.l.emd = (linkOf p).md ∧ s.l.wis = (linkOf p).wis ∧
    (∀ d, s.l.aed + s.l.emd * d = (linkOf p).diffLine d) ∧ 0 < s.h.dlsa := by
  unfold setupC at hs
  obtain ⟨h, hh, hs⟩ := bind_eq_ok.1 hs
  obtain ⟨c, hc, hs⟩ := bind_eq_ok.1 hs
  obtain ⟨l, hl, hs⟩ := bind_eq_ok.1 hs
  rw [pure_ok, ok_inj] at hs
  subst hs
  dsimp only
  rw [← lrHorizon_eq] at hh
  obtain ⟨e1, e2, e3⟩ := hor_spec hh
  obtain ⟨_, _, _, _, _, _, hne, hgme⟩ := diff_spec hh hc
  have hpos : 0 < h.dlsa := by
    have hh' := hh
    unfold lrHorizon at hh'
    obtain ⟨x0, g0, hh'⟩ := bind_eq_ok.1 hh'
    obtain ⟨d0, g1, hh'⟩ := bind_eq_ok.1 hh'
    obtain ⟨x1, g2, hh'⟩ := bind_eq_ok.1 hh'
    obtain ⟨d1, g3, hh'⟩ := bind_eq_ok.1 hh'
    rw [pure_ok, ok_inj] at hh'
    rw [← hh']
    dsimp only
    have h0 := (mathSqrt_eq_ok.1 g1)
    have h1 := (mathSqrt_eq_ok.1 g3)
    rw [h0.2, h1.2]
    have : 0 < x0 := by
      refine lt_of_le_of_ne h0.1 (Ne.symm ?_)
      rw [(pyDiv_eq_ok.1 g0).2]
      exact div_ne_zero (mul_ne_zero (by norm_num) hne) hgme
    have := Real.sqrt_pos.2 this
    have := Real.sqrt_nonneg x1
    linarith
  refine ⟨hh, ⟨e1, e2, e3⟩, ?_⟩
  unfold lineC lrLineWith at hl
  obtain ⟨xae, hx, hl⟩ := bind_eq_ok.1 hl
  obtain ⟨a3, h3, hl⟩ := bind_eq_ok.1 hl
  obtain ⟨a4, h4, hl⟩ := bind_eq_ok.1 hl
  obtain ⟨emd, he, hl⟩ := bind_eq_ok.1 hl
  obtain ⟨wis, hw, hl⟩ := bind_eq_ok.1 hl
  rw [pure_ok, ok_inj] at hl
  subst hl
  dsimp only
  have hxae : xae = (linkOf p).xae := by
    rw [(pyPow_eq_ok.1 hx).2.2, third_real, npow_real]; rfl
  have hd3 : pyMax h.dlsa (1.3787 * xae + h.dla) = (linkOf p).d3 := by
    rw [pyMax_real, e1, e2, hxae, add_comm]; rfl
  rw [hd3] at h3 h4 he
  have hd4 : (linkOf p).d3 + 2.7574 * xae = (linkOf p).d4 := by rw [hxae]; rfl
  rw [hd4] at h4 he
  have hxp : 0 ≤ xae := by
    rw [(pyPow_eq_ok.1 hx).2.2]; exact Real.rpow_nonneg (pyPow_eq_ok.1 hx).1 _
  have p3 : 0 < (linkOf p).d3 := by rw [← hd3, pyMax_real]; exact lt_max_of_lt_left hpos
  have p4 : 0 < (linkOf p).d4 := by rw [← hd4]; positivity
  have v3 := adiff_spec hh hc p3.ne' h3
  have v4 := adiff_spec hh hc p4.ne' h4
  have hemd : emd = (linkOf p).md := by
    rw [(pyDiv_eq_ok.1 he).2, v3, v4]; rfl
  refine ⟨hxae, hemd, ?_, ?_, hpos⟩
  · rw [(pyDiv_eq_ok.1 hw).2, pyMax_real, e1]
    unfold Link.wis
    rw [show (10e3 : ℝ) = 10000 by norm_num]; rfl
  · intro d
    unfold Link.diffLine
    rw [hd3, v3, hemd]; ring

/-! ### Line of sight -/

theorem los_spec {p : PropSt ℝ} {s : Setup ℝ} {k : LosC ℝ} (hs : setupC p.mdp (inp p) = .ok s)
    (hk : losC (inp p) s.h s.l = .ok k) : (k.ak1, k.ak2) = (linkOf p).fitCoef ∧
      ∀ d, 0 < d → k.ael + k.ak1 * d + k.ak2 * Real.log d = (linkOf p).sight d := by
  obtain ⟨_, ⟨e1, e2, _⟩, _, hemd, hwis, hline, hpos⟩ := line_spec hs
  have haed : s.l.aed = (linkOf p).diffLine 0 := by rw [← hline]; ring
  have hmix : ∀ {d a : ℝ}, alos d { blank 0 (inp p) with line := some s.l } = .ok a → a = (linkOf p).twoRayMix d := by
    intro d a ha
    rw [alos_value (p := { blank 0 (inp p) with line := some s.l }) rfl ha]
    unfold Link.twoRayMix
    rw [← hline, hwis]; rfl
  unfold losC losCoef at hk
  dsimp only at hk
  obtain ⟨⟨d0, d1⟩, hd, hk⟩ := bind_eq_ok.1 hk
  dsimp only at hk
  have hfd : (d0, d1) = fitDistances p.wn p.he.x0 p.he.x1 (linkOf p).dla ((linkOf p).diffLine 0) (linkOf p).md := by
    unfold losDists at hd
    unfold fitDistances
    simp only [zero_lit] at hd
    rw [← haed, ← hemd, ← e2]
    by_cases c : 0 ≤ s.l.aed
    · rw [if_pos c, pure_ok, ok_inj] at hd
      rw [if_pos c, ← hd]
      simp only [pyMin_real]
      refine Prod.ext ?_ ?_
      · show min (1.908 * p.wn * p.he.x0 * p.he.x1) _ = _
        rw [show (0.5 * s.h.dla : ℝ) = s.h.dla / 2 by norm_num; ring]
      · show min (1.908 * p.wn * p.he.x0 * p.he.x1) _ + _ = _
        rw [show (0.5 * s.h.dla : ℝ) = s.h.dla / 2 by norm_num; ring]
        change _ + 0.25 * (_ - min (1.908 * p.wn * p.he.x0 * p.he.x1) _) = _
        norm_num; ring
    · rw [if_neg c] at hd
      obtain ⟨q, hq, hd⟩ := bind_eq_ok.1 hd
      rw [pure_ok, ok_inj] at hd
      rw [if_neg c, ← hd, (pyDiv_eq_ok.1 hq).2, pyMax_real]
      rw [show (0.25 * s.h.dla : ℝ) = s.h.dla / 4 by norm_num; ring]
      rfl
  obtain ⟨a1, h1, hk⟩ := bind_eq_ok.1 hk
  have v1 := hmix h1
  have v2 : s.l.aed + s.h.dlsa * s.l.emd = (linkOf p).diffLine (linkOf p).dlsa := by rw [← hline, e1]; ring
  rw [v2] at hk
  obtain ⟨k1, k2, hc, hk⟩ : ∃ k1 k2, (if d0 < d1 then (do
      let a0 ← alos d0 { blank 0 (inp p) with line := some s.l }
      let q ← npLog (← s.h.dlsa /! d0)
      let ak2 ← losAk2 d0 d1 s.h.dlsa a0 a1 ((linkOf p).diffLine (linkOf p).dlsa) q
      if 0.0 ≤ s.l.aed ∨ 0.0 < ak2 then losAk1 d0 s.h.dlsa a0 ((linkOf p).diffLine (linkOf p).dlsa) q ak2 s.l.emd
      else losPlain d1 s.h.dlsa a1 ((linkOf p).diffLine (linkOf p).dlsa) s.l.emd)
      else losPlain d1 s.h.dlsa a1 ((linkOf p).diffLine (linkOf p).dlsa) s.l.emd) = .ok (k1, k2) ∧
      (do let lg ← npLog s.h.dlsa
          pure { ael := (linkOf p).diffLine (linkOf p).dlsa - k1 * s.h.dlsa - k2 * lg, ak1 := k1, ak2 := k2 }) =
        (.ok k : Py (LosC ℝ)) := by
    by_cases c : d0 < d1
    · simp only [if_pos c] at hk ⊢
      obtain ⟨a0, h0, hk⟩ := bind_eq_ok.1 hk
      obtain ⟨qq, hqq, hk⟩ := bind_eq_ok.1 hk
      obtain ⟨q, hq, hk⟩ := bind_eq_ok.1 hk
      obtain ⟨k2', hk2, hk⟩ := bind_eq_ok.1 hk
      rw [h0, ok_bind, hqq, ok_bind, hq, ok_bind, hk2, ok_bind]
      by_cases cc : (0.0 : ℝ) ≤ s.l.aed ∨ 0.0 < k2'
      · rw [if_pos cc] at hk ⊢
        obtain ⟨⟨k1, k2⟩, hc, hk⟩ := bind_eq_ok.1 hk
        exact ⟨k1, k2, hc, hk⟩
      · rw [if_neg cc] at hk ⊢
        obtain ⟨⟨k1, k2⟩, hc, hk⟩ := bind_eq_ok.1 hk
        exact ⟨k1, k2, hc, hk⟩
    · simp only [if_neg c] at hk ⊢
      obtain ⟨⟨k1, k2⟩, hc, hk⟩ := bind_eq_ok.1 hk
      exact ⟨k1, k2, hc, hk⟩
  obtain ⟨lg, hlg, hk⟩ := bind_eq_ok.1 hk
  rw [pure_ok, ok_inj] at hk
  subst hk
  dsimp only
  have hcoef : (k1, k2) = (linkOf p).fitCoef := by
    have hd0 : (fitDistances p.wn p.he.x0 p.he.x1 (linkOf p).dla ((linkOf p).diffLine 0) (linkOf p).md).1 = d0 := by rw [← hfd]
    have hd1 : (fitDistances p.wn p.he.x0 p.he.x1 (linkOf p).dla ((linkOf p).diffLine 0) (linkOf p).md).2 = d1 := by rw [← hfd]
    unfold Link.fitCoef
    rw [show (linkOf p).wn = p.wn from rfl, show (linkOf p).he₀ = p.he.x0 from rfl, show (linkOf p).he₁ = p.he.x1 from rfl, hd0, hd1]
    dsimp only
    rw [← v1]
    rw [e1, hemd] at hc
    generalize (linkOf p).diffLine (linkOf p).dlsa = a2 at *
    -- the straight fit
    have hpl : ∀ {x : ℝ × ℝ}, losPlain d1 (linkOf p).dlsa a1 a2 (linkOf p).md = .ok x →
        x = if a2 ≤ a1 then ((linkOf p).md, 0) else ((a2 - a1) / ((linkOf p).dlsa - d1), 0) := by
      intro x hx
      unfold losPlain at hx
      simp only [zero_lit, pyMax_real, pyEq_real] at hx
      obtain ⟨y, hy, hx⟩ := bind_eq_ok.1 hx
      obtain ⟨hy0, hy⟩ := pyDiv_eq_ok.1 hy
      by_cases c : a2 ≤ a1
      · rw [max_eq_right (by linarith), zero_div] at hy
        rw [if_pos hy, pure_ok, ok_inj] at hx
        rw [if_pos c, ← hx]
      · rw [max_eq_left (by linarith [not_le.1 c])] at hy
        have : y ≠ 0 := by rw [hy]; exact div_ne_zero (by linarith [not_le.1 c]) hy0
        rw [if_neg this, pure_ok, ok_inj] at hx
        rw [if_neg c, ← hx, hy]
    by_cases c : d0 < d1
    · rw [if_pos c] at hc ⊢
      obtain ⟨a0, h0, hc⟩ := bind_eq_ok.1 hc
      have v0 := hmix h0
      obtain ⟨qq, hqq, hc⟩ := bind_eq_ok.1 hc
      obtain ⟨q, hq, hc⟩ := bind_eq_ok.1 hc
      obtain ⟨k2', hk2, hc⟩ := bind_eq_ok.1 hc
      have eq : q = Real.log ((linkOf p).dlsa / d0) := by rw [(npLog_eq_ok.1 hq).2, (pyDiv_eq_ok.1 hqq).2]
      have ek2 : k2' = max 0 ((((linkOf p).dlsa - d0) * (a1 - a0) - (d1 - d0) * (a2 - a0)) /
          (((linkOf p).dlsa - d0) * Real.log (d1 / d0) - (d1 - d0) * Real.log ((linkOf p).dlsa / d0))) := by
        unfold losAk2 at hk2
        obtain ⟨x, hx, hk2⟩ := bind_eq_ok.1 hk2
        obtain ⟨l1, hl1, hk2⟩ := bind_eq_ok.1 hk2
        obtain ⟨f, hf, hk2⟩ := bind_eq_ok.1 hk2
        rw [pure_ok, ok_inj, pyMax_real, zero_lit] at hk2
        rw [← hk2, (pyDiv_eq_ok.1 hf).2, (npLog_eq_ok.1 hl1).2, (pyDiv_eq_ok.1 hx).2, eq]
      rw [← v0, ← ek2, ← eq, ← haed]
      rw [zero_lit] at hc
      by_cases cc : 0 ≤ s.l.aed ∨ 0 < k2'
      · rw [if_pos cc] at hc ⊢
        unfold losAk1 at hc
        simp only [zero_lit, pyMax_real, pyEq_real] at hc
        obtain ⟨x, hx, hc⟩ := bind_eq_ok.1 hc
        have ex := (pyDiv_eq_ok.1 hx).2
        rw [← ex]
        by_cases cx : x < 0
        · rw [if_pos cx] at hc
          rw [if_neg (not_le.2 cx)]
          obtain ⟨y, hy, hc⟩ := bind_eq_ok.1 hc
          obtain ⟨hq0, hy⟩ := pyDiv_eq_ok.1 hy
          by_cases ca : a2 ≤ a0
          · rw [max_eq_right (by linarith), zero_div] at hy
            rw [if_pos hy, pure_ok, ok_inj] at hc
            rw [if_pos ca, ← hc, hy]
          · rw [max_eq_left (by linarith [not_le.1 ca])] at hy
            have : y ≠ 0 := by rw [hy]; exact div_ne_zero (by linarith [not_le.1 ca]) hq0
            rw [if_neg this, pure_ok, ok_inj] at hc
            rw [if_neg ca, ← hc, hy]
        · rw [if_neg cx, pure_ok, ok_inj] at hc
          rw [if_pos (not_lt.1 cx)]; exact hc.symm
      · rw [if_neg cc] at hc ⊢
        exact hpl hc
    · rw [if_neg c] at hc ⊢
      exact hpl hc
  refine ⟨hcoef, fun d hd => ?_⟩
  unfold Link.sight
  rw [← hcoef]
  dsimp only
  rw [(npLog_eq_ok.1 hlg).2, e1, Real.log_div hd.ne' (by rw [← e1]; exact hpos.ne')]
  ring

/-! ### Forward scatter -/

theorem scatPrep_spec {p : PropSt ℝ} {s : ScatPrep ℝ} (h : scatPrep (blank 0 (inp p)) = .ok s) :
    s.ad = (linkOf p).ad ∧ s.rr = (linkOf p).rr ∧
      s.etq = 0.031 - 0.00232 * p.ens + 5.67e-6 * p.ens ^ 2 ∧ s.h0s = -15 := by
  unfold scatPrep at h
  simp only [zero_lit] at h
  obtain ⟨r, hr, h⟩ := bind_eq_ok.1 h
  have er : r = p.he.x1 / p.he.x0 := (pyDiv_eq_ok.1 hr).2
  have eq : ∀ x : ℝ, (5.67e-6 * x - 2.32e-3) * x + 0.031 = 0.031 - 0.00232 * x + 5.67e-6 * x ^ 2 := by
    intro x; norm_num; ring
  unfold Link.ad Link.rr linkOf
  dsimp only
  by_cases c : p.dl.x0 - p.dl.x1 < 0
  · rw [if_pos (show (blank 0 (inp p)).dl.x0 - (blank 0 (inp p)).dl.x1 < 0 from c)] at h
    simp only [bind_assoc, pure_bind] at h
    obtain ⟨r', hr', h⟩ := bind_eq_ok.1 h
    rw [pure_ok, ok_inj] at h
    rw [← h]
    refine ⟨?_, ?_, eq _, by norm_num⟩
    · rw [abs_of_neg c]; rfl
    · rw [if_pos (by linarith), (pyDiv_eq_ok.1 hr').2, er]
      norm_num
  · rw [if_neg (show ¬ (blank 0 (inp p)).dl.x0 - (blank 0 (inp p)).dl.x1 < 0 from c)] at h
    simp only [pure_bind] at h
    rw [pure_ok, ok_inj] at h
    rw [← h]
    refine ⟨?_, ?_, eq _, by norm_num⟩
    · rw [abs_of_nonneg (not_lt.1 c)]; rfl
    · rw [if_neg (by linarith [not_lt.1 c])]; exact er

theorem ascatR_spec (p : PropSt ℝ) (d : ℝ) : ascatR d (blank 0 (inp p)) =
    ((linkOf p).scatterAngle d, (linkOf p).scatterR p.he.x0 d, (linkOf p).scatterR p.he.x1 d) := by
  unfold ascatR Link.scatterR Link.scatterAngle linkOf
  have e2 : (2.0 : ℝ) = 2 := by norm_num
  simp only [e2]; rfl

theorem ascatH0_spec {p : PropSt ℝ} {s : ScatPrep ℝ} (h1 : s.ad = (linkOf p).ad) (h2 : s.rr = (linkOf p).rr)
    (h3 : s.etq = 0.031 - 0.00232 * p.ens + 5.67e-6 * p.ens ^ 2) {d v : ℝ} (h : ascatH0 d (blank 0 (inp p)) s = .ok v) :
    v = if 15 < (linkOf p).scatterGain d ∧ 0 ≤ s.h0s then s.h0s else (linkOf p).scatterGain d := by
  unfold ascatH0 at h
  rw [ascatR_spec] at h
  dsimp only at h
  simp only [zero_lit, pyMax_real, pyMin_real, npow_real, rexp] at h
  obtain ⟨ss, hss, h⟩ := bind_eq_ok.1 h
  have ess := (pyDiv_eq_ok.1 hss).2
  obtain ⟨q, hq, h⟩ := bind_eq_ok.1 h
  have eqq := (pyDiv_eq_ok.1 hq).2
  obtain ⟨z, hz, h⟩ := bind_eq_ok.1 h
  have ez : z = (linkOf p).z0 d := by
    rw [(pyDiv_eq_ok.1 hz).2, h1]
    unfold Link.z0
    have := (pyDiv_eq_ok.1 hz).1
    rw [show ((0.25 : ℝ)) = 1 / 4 by norm_num]
    field_simp
  obtain ⟨et, het⟩ : ∃ et, et = (s.etq * Real.exp (-(min 1.7 (z / 8.0e3)) ^ 6) + 1.0) * z / 1.7556e3 := ⟨_, rfl⟩
  have eet : et = (linkOf p).eta d := by
    rw [het, h3, ez]
    unfold Link.eta
    rw [show (8.0e3 : ℝ) = 8000 by norm_num, show (1.7556e3 : ℝ) = 1755.6 by norm_num, show (linkOf p).ens = p.ens from rfl]
    norm_num
    ring
  rw [← het] at h
  obtain ⟨f1, hf1, h⟩ := bind_eq_ok.1 h
  obtain ⟨f2, hf2, h⟩ := bind_eq_ok.1 h
  obtain ⟨l1, hl1, h⟩ := bind_eq_ok.1 h
  obtain ⟨l2, hl2, h⟩ := bind_eq_ok.1 h
  obtain ⟨l3, hl3, h⟩ := bind_eq_ok.1 h
  have ef1 := h0f_spec hf1
  have ef2 := h0f_spec hf2
  have el1 := (npLog_eq_ok.1 hl1).2
  have el2 := (npLog_eq_ok.1 hl2).2
  have el3 := (npLog_eq_ok.1 hl3).2
  have one : (1.0 : ℝ) = 1 := by norm_num
  have ten : (10.0 : ℝ) = 10 := by norm_num
  rw [one] at ef1 ef2 el1
  rw [ten] at el3
  have hh : (f1 + f2) * 0.5 = (scatterTable ((linkOf p).scatterR p.he.x0 d) (max ((linkOf p).eta d) 1) +
      scatterTable ((linkOf p).scatterR p.he.x1 d) (max ((linkOf p).eta d) 1)) / 2 := by
    rw [ef1, ef2, eet]; norm_num; ring
  have ha : (1.38 - l1) * l2 * l3 * 0.49 = 0.49 * (1.38 - Real.log (max ((linkOf p).eta d) 1)) *
      Real.log (max 0.1 ((d - (linkOf p).ad) / (d + (linkOf p).ad))) *
      Real.log (min (max 0.1 ((linkOf p).rr / ((d - (linkOf p).ad) / (d + (linkOf p).ad)))) 10) := by
    rw [el1, el2, el3, eqq, ess, h1, h2, eet]; ring
  rw [hh, ha] at h
  have key : ∀ g : ℝ, g = (linkOf p).scatterGain d →
      (pure (if 15.0 < g ∧ 0 ≤ s.h0s then s.h0s else g) : Py ℝ) = .ok v →
      v = if 15 < (linkOf p).scatterGain d ∧ 0 ≤ s.h0s then s.h0s else (linkOf p).scatterGain d := by
    intro g hg hv
    rw [pure_ok, ok_inj] at hv
    rw [← hv, hg, show (15.0 : ℝ) = 15 by norm_num]
  by_cases c : et < 1
  · rw [if_pos (by rw [one]; exact c)] at h
    simp only [bind_assoc, pure_bind] at h
    obtain ⟨u1, hu1, h⟩ := bind_eq_ok.1 h
    obtain ⟨u2, hu2, h⟩ := bind_eq_ok.1 h
    obtain ⟨u3, hu3, h⟩ := bind_eq_ok.1 h
    obtain ⟨u4, hu4, h⟩ := bind_eq_ok.1 h
    refine key _ ?_ h
    unfold Link.scatterGain
    dsimp only
    rw [if_pos (by rw [← eet]; exact c), (npLog_eq_ok.1 hu4).2, (pyDiv_eq_ok.1 hu3).2, (pyDiv_eq_ok.1 hu2).2,
      (pyDiv_eq_ok.1 hu1).2, eet, one, show (linkOf p).he₀ = p.he.x0 from rfl, show (linkOf p).he₁ = p.he.x1 from rfl]
    ring
  · rw [if_neg (by rw [one]; exact c)] at h
    simp only [pure_bind] at h
    refine key _ ?_ h
    unfold Link.scatterGain
    dsimp only
    rw [if_neg (by rw [← eet]; exact c)]
    rfl

theorem ascatFinal_spec {p : PropSt ℝ} {h : Horizon ℝ} (ht : h.tha = (linkOf p).tha) {d g a : ℝ}
    (ha : ascatFinal d g { blank 0 (inp p) with hor := some h } = .ok a) : a = (linkOf p).scatterAtt d g := by
  unfold ascatFinal at ha
  simp only [need, ok_bind, npow_real, rexp] at ha
  obtain ⟨x, hx, ha⟩ := bind_eq_ok.1 ha
  obtain ⟨l, hl, ha⟩ := bind_eq_ok.1 ha
  rw [pure_ok, ok_inj] at ha
  rw [← ha, ahd_spec hx, (npLog_eq_ok.1 hl).2]
  unfold Link.scatterAtt
  dsimp only
  rw [ht, show (40e3 : ℝ) = 40000 by norm_num, show (301.0 : ℝ) = 301 by norm_num]
  rfl

/-- The two scatter attenuations. -/
theorem scat_values {p : PropSt ℝ} {h : Horizon ℝ} (e3 : h.tha = (linkOf p).tha) {s0 s1 s2 : ScatPrep ℝ} {a1 a6 a5 : ℝ}
    (hs0 : scatPrep (blank 0 (inp p)) = .ok s0) (hx6 : ascatC (inp p) h s0 a1 (linkOf p).d6 = .ok (a6, s1))
    (hx5 : ascatC (inp p) h s1 a6 (linkOf p).d5 = .ok (a5, s2)) (h6 : (linkOf p).ScatterOk (linkOf p).d6) (ha1 : a1 = 0.0) :
    a6 = (linkOf p).a6 ∧ a5 = (linkOf p).a5 := by
  subst ha1
  obtain ⟨p1, p2, p3, p4⟩ := scatPrep_spec hs0
  -- the farther distance
  have f6 : a6 = (linkOf p).a6 ∧ s1 = { s0 with h0s := (linkOf p).scatterGain (linkOf p).d6 } := by
    unfold ascatC at hx6
    rw [if_neg (by rw [p4]; norm_num)] at hx6
    obtain ⟨h0, hh0, hx6⟩ := bind_eq_ok.1 hx6
    obtain ⟨a, ha, hx6⟩ := bind_eq_ok.1 hx6
    have e0 := ascatH0_spec p1 p2 p3 hh0
    rw [if_neg (by rw [p4]; norm_num)] at e0
    rw [pure_ok, ok_inj, ascatR_spec] at hx6
    dsimp only at hx6
    have hno : ¬ ((linkOf p).scatterR p.he.x0 (linkOf p).d6 < 0.2 ∧ (linkOf p).scatterR p.he.x1 (linkOf p).d6 < 0.2) := by
      rintro ⟨c1, c2⟩
      rcases h6 with h6 | h6
      · exact absurd h6 (not_le.2 c1)
      · exact absurd h6 (not_le.2 c2)
    simp only [if_neg hno] at hx6
    rw [if_pos (by rw [pyEq_real]; norm_num), Prod.mk.injEq] at hx6
    refine ⟨?_, by rw [← hx6.2, e0]⟩
    rw [← hx6.1, ascatFinal_spec e3 ha, e0]; rfl
  -- the nearer distance
  have f5 : a5 = (linkOf p).a5 := by
    unfold ascatC at hx5
    rw [f6.2] at hx5
    dsimp only at hx5
    rw [show (15.0 : ℝ) = 15 by norm_num] at hx5
    unfold Link.a5 Link.gain5
    by_cases c6 : 15 < (linkOf p).scatterGain (linkOf p).d6
    · rw [if_pos c6] at hx5
      obtain ⟨a, ha, hx5⟩ := bind_eq_ok.1 hx5
      rw [pure_ok, ok_inj, Prod.mk.injEq] at hx5
      rw [if_pos (.inl c6), ← hx5.1, ascatFinal_spec e3 ha]
    · rw [if_neg c6] at hx5
      obtain ⟨h0, hh0, hx5⟩ := bind_eq_ok.1 hx5
      obtain ⟨a, ha, hx5⟩ := bind_eq_ok.1 hx5
      rw [pure_ok, ok_inj, Prod.mk.injEq] at hx5
      rw [← hx5.1, ascatFinal_spec e3 ha]
      have e0 := ascatH0_spec (s := { s0 with h0s := (linkOf p).scatterGain (linkOf p).d6 }) p1 p2 p3 hh0
      dsimp only at e0
      rw [e0]
      simp only [c6, false_or]
  exact ⟨f6.1, f5⟩

/-- The scatter line. -/
theorem scat_spec {p : PropSt ℝ} {s : Setup ℝ} (hs : setupC p.mdp (inp p) = .ok s) {x : ℝ × ScatPrep ℝ × ScatC ℝ}
    (hx : scatC (inp p) s.h s.l 0.0 = .ok x) (h5 : (linkOf p).ScatterOk (linkOf p).d5) (h6 : (linkOf p).ScatterOk (linkOf p).d6)
    (d : ℝ) : farAref s.l x.2.2 d = (linkOf p).beyond d := by
  obtain ⟨_, ⟨e1, e2, e3⟩, exae, hemd, _, hline, _⟩ := line_spec hs
  unfold scatC at hx
  obtain ⟨s0, hs0, hx⟩ := bind_eq_ok.1 hx
  have ed5 : s.h.dla + 200e3 = (linkOf p).d5 := by rw [e2]; unfold Link.d5; norm_num
  have ed6 : (linkOf p).d5 + 200e3 = (linkOf p).d6 := by unfold Link.d5 Link.d6; norm_num; ring
  dsimp only at hx
  rw [ed5, ed6] at hx
  obtain ⟨⟨a6, s1⟩, hx6, hx⟩ := bind_eq_ok.1 hx
  dsimp only at hx
  obtain ⟨⟨a5, s2⟩, hx5, hx⟩ := bind_eq_ok.1 hx
  dsimp only at hx
  obtain ⟨c, hc, hx⟩ := bind_eq_ok.1 hx
  rw [pure_ok, ok_inj] at hx
  subst hx
  dsimp only
  obtain ⟨f6, f5⟩ := scat_values e3 hs0 hx6 hx5 h6 rfl
  rw [f6, f5] at hc
  clear hx6 hx5 f6 f5
  have haed : s.l.aed = (linkOf p).diffLine 0 := by rw [← hline]; ring
  unfold scatCoef at hc
  unfold farAref Link.beyond
  by_cases c1 : (linkOf p).a5 < 1000
  · rw [if_pos (by norm_num; exact c1)] at hc
    obtain ⟨lg, hlg, hc⟩ := bind_eq_ok.1 hc
    obtain ⟨y, hy, hc⟩ := bind_eq_ok.1 hc
    rw [pure_ok, ok_inj] at hc
    have ems : ((linkOf p).a6 - (linkOf p).a5) / 200e3 = (linkOf p).ms := by
      unfold Link.ms
      rw [show (linkOf p).d6 - (linkOf p).d5 = 200e3 by rw [← ed6]; ring]
    rw [ems] at hc hy
    have edx : c.dx = (linkOf p).dx := by
      rw [← hc]
      simp only [pyMax_real]
      unfold Link.dx
      rw [e1, e2, exae, (npLog_eq_ok.1 hlg).2, (pyDiv_eq_ok.1 hy).2, hemd, haed]
      congr 2
      ring
    have eaes : c.aes = (s.l.emd - (linkOf p).ms) * c.dx + s.l.aed := by rw [← hc]
    have eems : c.ems = (linkOf p).ms := by rw [← hc]
    rw [eaes, eems, edx]
    by_cases c2 : (linkOf p).dx < d
    · rw [if_pos c2, if_pos ⟨h5, c1, c2⟩, ← hline]; ring
    · rw [if_neg c2, if_neg (fun c : _ ∧ _ ∧ _ => c2 c.2.2), ← hline]
  · rw [if_neg (by norm_num; exact not_lt.1 c1), pure_ok, ok_inj] at hc
    rw [if_neg (fun c : _ ∧ _ ∧ _ => c1 c.2.1), ← hline, ← hc]
    simp only [ite_self]

/-! ### The whole function -/

theorem setup_call {p q : PropSt ℝ} {d : ℝ} (hm : p.mdp ≠ 0) (h : lrprop d p = .ok q) :
    q.dist = distOf p d ∧ ∃ s c, setupC p.mdp (inp p) = .ok s ∧
      runC (inp p) s.h s.l (distOf p d) { cacheOf p with wlos := false, wscat := false, ascat1 := 0.0 } = .ok c ∧
      q.aref = c.aref := by
  rw [lrprop_setup hm] at h
  obtain ⟨s, hs, h⟩ := bind_eq_ok.1 h
  obtain ⟨c, hc, h⟩ := bind_eq_ok.1 h
  rw [pure_ok, ok_inj] at h
  rw [← h]
  exact ⟨rfl, s, c, hs, hc, rfl⟩

/-- **C57** A first call at a line-of-sight distance returns the published attenuation. -/
theorem C57_line_of_sight {p q : PropSt ℝ} {d : ℝ} (hm : p.mdp ≠ 0) (h : lrprop d p = .ok q)
    (h0 : 0 < q.dist) (h1 : q.dist < (linkOf p).dlsa) :
    q.aref = some ((linkOf p).reference q.dist) := by
  obtain ⟨hd, s, c, hs, hc, ha⟩ := setup_call hm h
  rw [← hd] at hc
  obtain ⟨_, ⟨e1, _⟩, _⟩ := line_spec hs
  have e := runC_near (i := inp p) (h := s.h) (l := s.l) (D := q.dist)
    (c := { cacheOf p with wlos := false, wscat := false, ascat1 := 0.0 }) (by rw [e1]; exact h1) h0 rfl
  rw [hc] at e
  obtain ⟨k, hk, hv⟩ := map_ok.1 e.symm
  obtain ⟨_, hs2⟩ := los_spec hs hk
  rw [ha]
  unfold Link.reference
  rw [if_pos ⟨h0, h1⟩, ← hs2 _ h0, max_comm]
  exact hv.symm

/-- **C57** A first call at any other distance returns the published attenuation, if the distances of the scatter line are usable
for scatter. -/
theorem C57_beyond {p q : PropSt ℝ} {d : ℝ} (hm : p.mdp ≠ 0) (h : lrprop d p = .ok q)
    (hb : q.dist ≤ 0 ∨ (linkOf p).dlsa ≤ q.dist)
    (h5 : (linkOf p).ScatterOk (linkOf p).d5) (h6 : (linkOf p).ScatterOk (linkOf p).d6) :
    q.aref = some ((linkOf p).reference q.dist) := by
  obtain ⟨hd, s, c, hs, hc, ha⟩ := setup_call hm h
  rw [← hd] at hc
  obtain ⟨_, ⟨e1, _⟩, _⟩ := line_spec hs
  have hv : ∃ x, scatC (inp p) s.h s.l 0.0 = .ok x ∧ c.aref = some (max (farAref s.l x.2.2 q.dist) 0) := by
    by_cases c1 : s.h.dlsa ≤ q.dist
    · have e := runC_far (i := inp p) (h := s.h) (l := s.l) (D := q.dist)
        (c := { cacheOf p with wlos := false, wscat := false, ascat1 := 0.0 }) (freshCInv _ _ _ _) c1
      rw [hc] at e
      obtain ⟨x, hx, hv⟩ := map_ok.1 e.symm
      exact ⟨x, hx, hv.symm⟩
    · have e := runC_nonpos (i := inp p) (h := s.h) (l := s.l) (D := q.dist)
        (c := { cacheOf p with wlos := false, wscat := false, ascat1 := 0.0 }) (freshCInv _ _ _ _) (not_le.1 c1)
        (hb.resolve_right (by rw [← e1]; exact c1))
      rw [hc] at e
      obtain ⟨_, _, e⟩ := bind_eq_ok.1 e.symm
      obtain ⟨x, hx, hv⟩ := map_ok.1 e
      exact ⟨x, hx, hv.symm⟩
  obtain ⟨x, hx, hv⟩ := hv
  rw [ha, hv, scat_spec hs hx h5 h6, max_comm]
  unfold Link.reference
  rw [if_neg (by rintro ⟨c1, c2⟩; rcases hb with hb | hb <;> linarith)]

/-- **C57** So does every call of a sweep at a distance beyond the horizon, whatever was asked before, and every call before which
no distance below the horizon was asked. -/
theorem C57_sweep {p q r : PropSt ℝ} {ds : List ℝ} (hm : 0 < p.mdp) (hq : sweep ds p = .ok q) {D : ℝ} (h : lrprop D q = .ok r)
    (hD : (linkOf p).dlsa ≤ D ∨ ∀ d ∈ ds, (linkOf p).dlsa ≤ d) (h5 : (linkOf p).ScatterOk (linkOf p).d5)
    (h6 : (linkOf p).ScatterOk (linkOf p).d6) : r.aref = some ((linkOf p).reference D) := by
  have first : ∀ q', lrprop D p = .ok q' → q'.aref = some ((linkOf p).reference D) := by
    intro q' h'
    have hd : q'.dist = D := by
      rw [(setup_call (by omega) h').1]; unfold distOf; rw [if_pos (by omega)]
    rw [← hd]
    by_cases c : q'.dist ≤ 0 ∨ (linkOf p).dlsa ≤ q'.dist
    · exact C57_beyond (by omega) h' c h5 h6
    · push Not at c
      exact C57_line_of_sight (by omega) h' c.1 c.2
  cases ds with
  | nil =>
    rw [sweep, pure_ok, ok_inj] at hq
    subst hq
    exact first r h
  | cons d ds =>
    obtain ⟨s, hs, _⟩ := sweep_inv hm (by simp) hq
    obtain ⟨hh, ⟨e1, _⟩, _⟩ := line_spec hs
    have e := C20_sweep_partial hm hq hh D (by rw [e1]; exact hD.imp_right .inr)
    rw [show arefOf (lrprop D q) = .ok r.aref by rw [h]; rfl] at e
    obtain ⟨q', h', ha⟩ := map_ok.1 e.symm
    rw [← ha]
    exact first q' h'

/-- The smooth link is usable for scatter at every long distance. -/
theorem smooth_scatterOk (d : ℝ) (hd : 320000 ≤ d) : (linkOf smooth).ScatterOk d := by
  left
  show (0.2 : ℝ) ≤ 2 * smoothIn.wn * (smoothIn.the.x0 + smoothIn.the.x1 + d * smoothIn.gme) * smoothIn.he.x0
  unfold smoothIn tangentIn
  norm_num
  linarith

theorem smooth_d56 : (linkOf smooth).ScatterOk (linkOf smooth).d5 ∧ (linkOf smooth).ScatterOk (linkOf smooth).d6 := by
  have e : (linkOf smooth).dla = 160000 := by
    show smoothIn.dl.x0 + smoothIn.dl.x1 = 160000
    unfold smoothIn tangentIn; norm_num
  constructor <;> refine smooth_scatterOk _ ?_
  · unfold Link.d5; rw [e]; norm_num
  · unfold Link.d6; rw [e]; norm_num

/-- Non-vacuity: the smooth link meets every hypothesis below the horizon, beyond it, and in a sweep. -/
example : (linkOf smooth).dlsa = 160000 ∧
    (∃ q, lrprop 50000 smooth = .ok q ∧ q.aref = some ((linkOf smooth).reference 50000)) ∧
    (∃ q, lrprop 250000 smooth = .ok q ∧ q.aref = some ((linkOf smooth).reference 250000)) ∧
    ∃ q r, sweep [50000, 250000] smooth = .ok q ∧ lrprop 400000 q = .ok r ∧ r.aref = some ((linkOf smooth).reference 400000) := by
  obtain ⟨s, k, x, hs, _, hsa, hk, hx, _⟩ := smooth_all
  obtain ⟨_, ⟨e1, _⟩, _⟩ := line_spec (p := smooth) hs
  obtain ⟨h5, h6⟩ := smooth_d56
  have hd : (linkOf smooth).dlsa = 160000 := by rw [← e1, hsa]
  have far : ∀ (r : PropSt ℝ), SInv smooth s r → ∀ D, 160000 ≤ D → ∃ t, lrprop D r = .ok t ∧ SInv smooth s t := by
    intro r I D hD
    have e := arefOf_cont I D
    have e2 := runC_far I.cache (D := D) (by rw [hsa]; exact hD)
    rw [show inp smooth = smoothIn from rfl] at e e2
    rw [e2, hx] at e
    obtain ⟨t, ht, _⟩ := arefOf_ok e
    exact ⟨t, ht, (cont_inv I ht).1⟩
  refine ⟨hd, ?_, ?_, ?_⟩
  · obtain ⟨q, hq⟩ := smooth_total 50000 (by norm_num)
    refine ⟨q, hq, ?_⟩
    have e : q.dist = 50000 := (setup_call (by decide) hq).1
    rw [← e]
    exact C57_line_of_sight (by decide) hq (by rw [e]; norm_num) (by rw [e, hd]; norm_num)
  · obtain ⟨q, hq⟩ := smooth_total 250000 (by norm_num)
    refine ⟨q, hq, ?_⟩
    have e : q.dist = 250000 := (setup_call (by decide) hq).1
    rw [← e]
    exact C57_beyond (by decide) hq (.inr (by rw [e, hd]; norm_num)) h5 h6
  · obtain ⟨q1, h1⟩ := smooth_total 50000 (by norm_num)
    obtain ⟨s', hs', I1, _⟩ := first_inv (p := smooth) (by decide) h1
    have : s' = s := by
      rw [show setupC smooth.mdp (inp smooth) = setupC 1 smoothIn from rfl, hs, ok_inj] at hs'; exact hs'.symm
    subst this
    obtain ⟨q2, h2, I2⟩ := far q1 I1 250000 (by norm_num)
    obtain ⟨q3, h3, _⟩ := far q2 I2 400000 (by norm_num)
    have hq : sweep [50000, 250000] smooth = .ok q2 := by
      simp only [sweep, h1, h2, ok_bind, pure_ok]
    exact ⟨q2, q3, hq, h3, C57_sweep (by decide) hq h3 (.inl (by rw [hd]; norm_num)) h5 h6⟩

end Itm.Props
