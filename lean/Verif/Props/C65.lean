import Verif.Lemmas.CxSqrt
import Verif.Spec.Answered
import Verif.Lemmas.ScatExact
import Verif.Props.C57
import Verif.Lemmas.P2PTotal
import Verif.Props.C48

/-! C65: which links are answered. -/

namespace Itm.Props
open Itm Itm.Spec

theorem pyDiv_zero (x : ℝ) : x /! (0 : ℝ) = .error .zeroDivision := by
  unfold pyDiv; rw [if_pos]; rw [pyEq_real, zero_lit]

/-! ### Within the limits every logarithm, root and power is in its domain -/

theorem limits_zre {p : PropSt ℝ} (h : WithinLimits p) : 0 < p.zgnd.re := by
  rcases h.lossy with c | c
  · exact lt_of_lt_of_le (abs_pos.2 c) h.zgnd
  · linarith

theorem sqrt_ge_of {x y : ℝ} (hy : 0 ≤ y) (h : y ^ 2 ≤ x) : y ≤ √x := by
  rw [← Real.sqrt_sq hy]; exact Real.sqrt_le_sqrt h

theorem limits_adm {p : PropSt ℝ} (h : WithinLimits p) : Adm (inp p) := by
  have hg : 0 < p.gme := lt_of_lt_of_le (by norm_num) h.gme.1
  have hp : ∀ {he : ℝ}, 0 < he → 0 < 0.1 * smoothHorizon he p.gme := fun hh => by unfold smoothHorizon; positivity
  refine ⟨?_, ?_, h.he0.1, h.he1.1, ?_, ?_, ?_, hg, h.dh, (limits_zre h)⟩
  · show 0 < p.hg.x0; linarith [h.t0.hg.1]
  · show 0 < p.hg.x1; linarith [h.t1.hg.1]
  · exact lt_of_lt_of_le (hp h.he0.1) h.t0.dlmin
  · exact lt_of_lt_of_le (hp h.he1.1) h.t1.dlmin
  · show 0 < p.wn; have := h.wn.1; norm_num at this; linarith

/-- A cube root from below. -/
theorem le_third {x y : ℝ} (hy : 0 ≤ y) (h : y ^ 3 ≤ x) : y ≤ x ^ (third : ℝ) := by
  rw [← rpow_cube hy]
  exact Real.rpow_le_rpow (by positivity) h (by rw [third_real]; norm_num)

theorem limits_ground {p : PropSt ℝ} (h : WithinLimits p) : GroundAdm (inp p) := by
  have a := limits_adm h
  have hg : 0 < p.gme := a.gme
  have hw : 0 < p.wn := a.wn
  have g1 := h.gme.2
  have w1 := h.wn.1
  have hz : ∃ z w, 1 < 1.607 * z * w ∧ 0 < z ∧ 0 < w ∧ z ≤ (inp p).zgnd.abs ∧ ((w = 25.58 ∧ 0.419 ≤ p.wn) ∨ (w = 31.2 ∧ 0.838 ≤ p.wn)) := by
    have e : (inp p).zgnd.abs = √(p.zgnd.re ^ 2 + p.zgnd.im ^ 2) := by rw [cxabs_real, ← sq, ← sq]; rfl
    rw [e]
    rcases h.mirror with c | ⟨c, c'⟩
    · exact ⟨0.025, 25.58, by norm_num, by norm_num, by norm_num, c, .inl ⟨rfl, w1⟩⟩
    · exact ⟨0.02, 31.2, by norm_num, by norm_num, by norm_num, c, .inr ⟨rfl, c'⟩⟩
  obtain ⟨z, W, hzW, z0, W0, hz, hW⟩ := hz
  have key : ∀ {w : ℝ}, W ≤ w → 1 < 1.607 * (inp p).zgnd.abs * w := by
    intro w hw
    refine hzW.trans_le ?_
    exact mul_le_mul (mul_le_mul_of_nonneg_left hz (by norm_num)) hw W0.le (mul_nonneg (by norm_num) (z0.le.trans hz))
  have term : ∀ {dl he : ℝ}, 0 < he → 0.1 * smoothHorizon he p.gme ≤ dl → W ≤ termWa p.wn dl he := by
    intro dl he hh hd
    have hs : 0 ≤ 0.1 * smoothHorizon he p.gme := by unfold smoothHorizon; positivity
    have h2 : 0.01 * (2 * he / p.gme) ≤ dl ^ 2 := by
      have e : (0.1 * smoothHorizon he p.gme) ^ 2 = 0.01 * (2 * he / p.gme) := by
        unfold smoothHorizon; rw [mul_pow, Real.sq_sqrt (by positivity)]; norm_num
      rw [← e]; exact pow_le_pow_left₀ hs hd 2
    refine le_third W0.le ?_
    unfold termA
    have h3 : 0.01 / p.gme ≤ 0.5 * dl ^ 2 / he := by
      rw [le_div_iff₀ hh]
      have : 0.01 / p.gme * he = 0.5 * (0.01 * (2 * he / p.gme)) := by ring
      rw [this]; exact mul_le_mul_of_nonneg_left h2 (by norm_num)
    have h4 : 40000 ≤ 0.01 / p.gme := by rw [le_div_iff₀ hg]; norm_num at g1 ⊢; linarith
    have h5 : 40000 ≤ 0.5 * dl ^ 2 / he := h4.trans h3
    rcases hW with ⟨rfl, w1⟩ | ⟨rfl, w1⟩ <;> norm_num at w1 ⊢ <;> nlinarith
  refine ⟨(key (term h.he0.1 h.t0.dlmin)).le, (key (term h.he1.1 h.t1.dlmin)).le, key ?_⟩
  -- the path
  obtain ⟨u, hu⟩ : ∃ u, u = (xaeR (inp p) * p.gme)⁻¹ := ⟨_, rfl⟩
  have hxp := xaeR_pos a
  have hup : 0 < u := by rw [hu]; positivity
  have hx3 : xaeR (inp p) ^ 3 = (p.wn * p.gme ^ 2)⁻¹ := by
    unfold xaeR
    rw [← Real.rpow_natCast, ← Real.rpow_mul (by positivity), third_real, ← Real.rpow_neg_one]
    norm_num; rfl
  have hu3 : u ^ 3 = p.wn / p.gme := by
    rw [hu, inv_pow, mul_pow, hx3]; field_simp
  have hxu : xaeR (inp p) * p.gme = u⁻¹ := by rw [hu, inv_inv]
  have hwx : p.wn * xaeR (inp p) = u ^ 2 := by
    have : p.wn = u ^ 3 * p.gme := by rw [hu3]; field_simp
    rw [this, show u ^ 3 * p.gme * xaeR (inp p) = u ^ 3 * (xaeR (inp p) * p.gme) by ring, hxu]; field_simp
  have hu118 : 118.7 ≤ u := by
    by_contra c
    push Not at c
    have h1 : u ^ 3 < 118.7 ^ 3 := pow_lt_pow_left₀ c hup.le (by norm_num)
    rw [hu3, div_lt_iff₀ hg] at h1
    norm_num at h1 g1 w1; linarith
  have hu149 : 0.838 ≤ p.wn → 149.6 ≤ u := by
    intro w1
    by_contra c
    push Not at c
    have h1 : u ^ 3 < 149.6 ^ 3 := pow_lt_pow_left₀ c hup.le (by norm_num)
    rw [hu3, div_lt_iff₀ hg] at h1
    norm_num at h1 g1 w1; linarith
  have small : ∀ {he dl : ℝ}, 0 < he → he ≤ 20000 → dl ≤ 3 * smoothHorizon he p.gme → dl * p.gme ≤ 0.3 := by
    intro he dl h0 h1 h2
    have e : smoothHorizon he p.gme * p.gme ≤ 0.1 := by
      unfold smoothHorizon
      have : √(2 * he / p.gme) * p.gme = √(2 * he * p.gme) := by
        rw [show 2 * he * p.gme = 2 * he / p.gme * p.gme ^ 2 by field_simp, Real.sqrt_mul (by positivity), Real.sqrt_sq hg.le]
      rw [this]
      refine Real.sqrt_le_iff.2 ⟨by norm_num, ?_⟩
      norm_num at g1 ⊢
      nlinarith
    norm_num at e ⊢
    nlinarith
  have d0 := small h.he0.1 h.he0.2 h.t0.dlmax
  have d1 := small h.he1.1 h.he1.2 h.t1.dlmax
  have t0 := (abs_le.1 h.t0.the).2
  have t1 := (abs_le.1 h.t1.the).2
  have hth : (horR (inp p)).tha + (1.3787 * xaeR (inp p) + (horR (inp p)).dla) * p.gme ≤ 1 + 1.3787 * u⁻¹ := by
    have e1 : (horR (inp p)).dla = p.dl.x0 + p.dl.x1 := rfl
    have e2 : (horR (inp p)).tha = max (p.the.x0 + p.the.x1) (-(p.dl.x0 + p.dl.x1) * p.gme) := rfl
    rw [e1, ← hxu, e2]
    have : max (p.the.x0 + p.the.x1) (-(p.dl.x0 + p.dl.x1) * p.gme) ≤ 1 - (p.dl.x0 + p.dl.x1) * p.gme := by
      norm_num at d0 d1 t0 t1
      refine max_le ?_ ?_ <;> linarith
    linarith
  have hgt : (horR (inp p)).dla < 1.3787 * xaeR (inp p) + (horR (inp p)).dla := by
    linarith [mul_pos (by norm_num : (0:ℝ) < 1.3787) hxp]
  have hpos : 0 < (horR (inp p)).tha + (1.3787 * xaeR (inp p) + (horR (inp p)).dla) * p.gme := tha_pos a hgt
  refine le_third W0.le ?_
  unfold pathA
  show _ ≤ (1.3787 * xaeR (inp p) + (horR (inp p)).dla - (horR (inp p)).dla) / ((horR (inp p)).tha + (1.3787 * xaeR (inp p) + (horR (inp p)).dla) * p.gme) * p.wn
  rw [add_sub_cancel_right, div_mul_eq_mul_div, mul_assoc, mul_comm (xaeR _) p.wn, hwx, le_div_iff₀ hpos]
  refine (mul_le_mul_of_nonneg_left hth (by positivity)).trans ?_
  rcases hW with ⟨rfl, w1⟩ | ⟨rfl, w1⟩
  · have hinv : u⁻¹ ≤ 1 / 118.7 := by rw [inv_eq_one_div]; exact one_div_le_one_div_of_le (by norm_num) hu118
    norm_num at hinv ⊢
    nlinarith
  · have h149 := hu149 w1
    have hinv : u⁻¹ ≤ 1 / 149.6 := by rw [inv_eq_one_div]; exact one_div_le_one_div_of_le (by norm_num) h149
    norm_num at hinv ⊢
    nlinarith

theorem limits_zsafe {p : PropSt ℝ} (h : WithinLimits p) : ZSafe (inp p).zgnd := h.lossy

/-- The set-up of a link within the limits. -/
theorem limits_setup {p : PropSt ℝ} (h : WithinLimits p) : ∃ s, setupC p.mdp (inp p) = .ok s ∧ s.h = horR (inp p) := by
  obtain ⟨f0, f1, -, -, e⟩ := setupC_total (mdp := p.mdp) (limits_adm h) (limits_ground h)
  exact ⟨_, e, rfl⟩

/-! ### Line of sight -/

theorem losDR_spec {p : PropSt ℝ} {s : Setup ℝ} (hs : setupC p.mdp (inp p) = .ok s) : losDR (inp p) s.h s.l =
    fitDistances (linkOf p).wn (linkOf p).he₀ (linkOf p).he₁ (linkOf p).dla ((linkOf p).diffLine 0) (linkOf p).md := by
  obtain ⟨_, ⟨_, e2, _⟩, _, hemd, _, hline, _⟩ := line_spec hs
  have haed : s.l.aed = (linkOf p).diffLine 0 := by rw [← hline]; ring
  unfold losDR fitDistances
  rw [haed, hemd, e2]
  have e5 : 0.5 * (linkOf p).dla = (linkOf p).dla / 2 := by norm_num; ring
  have e25 : ∀ x : ℝ, 0.25 * x = x / 4 := fun x => by norm_num; ring
  simp only [e5, e25]
  rfl

/-- Division by zero in the fit. -/
theorem losC_clash {i : LrIn ℝ} {l : DiffLine ℝ} (a : Adm i) (hz : ZSafe i.zgnd)
    (hc : (l.aed < 0 ∧ l.emd = 0) ∨ (losDR i (horR i) l).2 = (horR i).dlsa ∨
      ((losDR i (horR i) l).1 < (losDR i (horR i) l).2 ∧ (losDR i (horR i) l).1 = (horR i).dlsa)) :
    losC i (horR i) l = .error .zeroDivision := by
  obtain ⟨p0, p1⟩ := losD_pos (l := l) a
  have hd2 := horR_dlsa_pos a
  unfold losC losCoef
  by_cases he : l.aed < 0 ∧ l.emd = 0
  · have : losDists { blank 0 i with line := some l } (horR i) l = .error .zeroDivision := by
      unfold losDists
      rw [if_neg (by rw [zero_lit]; exact not_le.2 he.1), he.2, pyDiv_zero]; rfl
    rw [this]; rfl
  have he' : 0 ≤ l.aed ∨ l.emd ≠ 0 := by
    by_contra c
    push Not at c
    exact he ⟨c.1, c.2⟩
  rw [losDists_ok he', ok_bind]
  replace hc := hc.resolve_left he
  generalize losDR i (horR i) l = D at *
  obtain ⟨d0, d1⟩ := D
  simp only at *
  obtain ⟨a1, ha1⟩ := alos_ok' (l := l) a hz p1
  obtain ⟨a0, ha0⟩ := alos_ok' (l := l) a hz p0
  rw [ha1, ok_bind]
  generalize hA2 : l.aed + (horR i).dlsa * l.emd = a2
  by_cases hlt : d0 < d1
  · simp only [hlt, if_true]
    have hq0 : 0 < (horR i).dlsa / d0 := div_pos hd2 p0
    rw [ha0, ok_bind, pyDiv_ok p0.ne', ok_bind, npLog_ok hq0, ok_bind]
    have : losAk2 d0 d1 (horR i).dlsa a0 a1 a2 (Real.log ((horR i).dlsa / d0)) = .error .zeroDivision := by
      unfold losAk2
      rw [pyDiv_ok p0.ne', ok_bind, npLog_ok (div_pos p1 p0), ok_bind]
      have e : ((horR i).dlsa - d0) * Real.log (d1 / d0) - (d1 - d0) * Real.log ((horR i).dlsa / d0) = 0 := by
        rcases hc with e | ⟨_, e⟩
        · rw [e]; ring
        · rw [← e, div_self p0.ne', Real.log_one]; ring
      rw [e, pyDiv_zero]; rfl
    rw [this]; rfl
  · simp only [hlt, if_false]
    have e : d1 = (horR i).dlsa := by
      rcases hc with e | ⟨c, _⟩
      · exact e
      · exact absurd c hlt
    have : losPlain d1 (horR i).dlsa a1 a2 l.emd = .error .zeroDivision := by
      unfold losPlain
      rw [e, sub_self, pyDiv_zero]; rfl
    rw [this]; rfl

/-- **C65** A first call within the limits at a line-of-sight distance: answered, unless the fit divides by zero, which it does
exactly on the stated coincidences. -/
theorem C65_sight {p : PropSt ℝ} {d : ℝ} (hm : p.mdp ≠ 0) (h : WithinLimits p) (h0 : 0 < distOf p d) (h1 : distOf p d < (linkOf p).dlsa) :
    (¬ (linkOf p).FitClash → ∃ q, lrprop d p = .ok q) ∧ ((linkOf p).FitClash → lrprop d p = .error .zeroDivision) := by
  have a := limits_adm h
  obtain ⟨s, hs, hh⟩ := limits_setup h
  obtain ⟨_, ⟨e1, _⟩, _, hemd, _, hline, _⟩ := line_spec hs
  have haed : s.l.aed = (linkOf p).diffLine 0 := by rw [← hline]; ring
  have hD := losDR_spec hs
  have e := runC_near (i := inp p) (h := s.h) (l := s.l) (D := distOf p d)
    (c := { cacheOf p with wlos := false, wscat := false, ascat1 := 0.0 }) (by rw [e1]; exact h1) h0 rfl
  rw [lrprop_setup hm, hs, ok_bind]
  rw [hh] at e hD e1 ⊢
  constructor
  · intro hc
    unfold Link.FitClash at hc
    rw [← hD, ← haed, ← hemd, ← e1] at hc
    simp only [not_or, not_and] at hc
    obtain ⟨k, hk⟩ := losC_ok (l := s.l) a (limits_zsafe h) (by
      by_contra c
      push Not at c
      exact hc.1 c.1 c.2) (fun c => hc.2.1 c.symm) (fun c1 c2 => hc.2.2 c1 c2.symm)
    rw [hk] at e
    obtain ⟨c, hc, -⟩ := map_ok.1 e
    rw [hc, ok_bind]
    exact ⟨_, rfl⟩
  · intro hc
    unfold Link.FitClash at hc
    rw [← hD, ← haed, ← hemd, ← e1] at hc
    rw [losC_clash a (limits_zsafe h) hc] at e
    cases hr : runC (inp p) (horR (inp p)) s.l (distOf p d) { cacheOf p with wlos := false, wscat := false, ascat1 := 0.0 } with
    | ok c => rw [hr] at e; cases e
    | error x => rw [hr] at e; cases e; rfl

/-! ### Beyond the horizon -/

theorem scatterOk_angle {p : PropSt ℝ} {d : ℝ} (hw : 0 < p.wn) (h0 : 0 < p.he.x0) (h1 : 0 < p.he.x1) (h : (linkOf p).ScatterOk d) :
    0 < (linkOf p).scatterAngle d := by
  have key : ∀ {he : ℝ}, 0 < he → 0.2 ≤ 2 * p.wn * (linkOf p).scatterAngle d * he → 0 < (linkOf p).scatterAngle d := by
    intro he hh h
    by_contra c
    push Not at c
    have : 2 * p.wn * (linkOf p).scatterAngle d * he ≤ 0 := by
      have := mul_nonneg (mul_nonneg (by positivity : 0 ≤ 2 * p.wn) (neg_nonneg.2 c)) hh.le
      linarith
    norm_num at h; linarith
  rcases h with h | h
  · exact key h0 h
  · exact key h1 h

theorem scatterOk_mono {p : PropSt ℝ} {d d' : ℝ} (hw : 0 < p.wn) (h0 : 0 < p.he.x0) (h1 : 0 < p.he.x1) (hg : 0 < p.gme) (hd : d ≤ d')
    (h : (linkOf p).ScatterOk d) : (linkOf p).ScatterOk d' := by
  have key : ∀ {he : ℝ}, 0 < he → (linkOf p).scatterR he d ≤ (linkOf p).scatterR he d' := by
    intro he hh
    unfold Link.scatterR Link.scatterAngle
    have : d * p.gme ≤ d' * p.gme := mul_le_mul_of_nonneg_right hd hg.le
    refine mul_le_mul_of_nonneg_right (mul_le_mul_of_nonneg_left ?_ (by show 0 ≤ 2 * p.wn; positivity)) hh.le
    show p.the.x0 + p.the.x1 + d * p.gme ≤ p.the.x0 + p.the.x1 + d' * p.gme
    linarith
  rcases h with h | h
  · exact .inl (h.trans (key h0))
  · exact .inr (h.trans (key h1))

theorem scatterAngle_mono {p : PropSt ℝ} {d d' : ℝ} (hg : 0 < p.gme) (hd : d ≤ d') : (linkOf p).scatterAngle d ≤ (linkOf p).scatterAngle d' := by
  have : d * p.gme ≤ d' * p.gme := mul_le_mul_of_nonneg_right hd hg.le
  show p.the.x0 + p.the.x1 + d * p.gme ≤ p.the.x0 + p.the.x1 + d' * p.gme
  linarith

/-- The scatter stage is the line through the two attenuations. -/
theorem scat_split {p : PropSt ℝ} (a : Adm (inp p)) {l : DiffLine ℝ} (ht : (horR (inp p)).tha = (linkOf p).tha) (t5 : 0 < (linkOf p).scatterAngle (linkOf p).d5) :
    ∃ s, scatC (inp p) (horR (inp p)) l 0.0 = (do
      let c ← scatCoef (blank 0 (inp p)) (horR (inp p)) l (linkOf p).d5 (linkOf p).a5' (linkOf p).a6
      pure ((linkOf p).a5', s, c)) := by
  have k : (0:ℝ) < 200e3 := by norm_num
  have hla := horR_dla_pos a
  have ed5 : (horR (inp p)).dla + 200e3 = (linkOf p).d5 := by unfold Link.d5; norm_num; rfl
  have ed6 : (linkOf p).d5 + 200e3 = (linkOf p).d6 := by unfold Link.d5 Link.d6; norm_num; ring
  have had : |(inp p).dl.x0 - (inp p).dl.x1| < (horR (inp p)).dla := by
    rw [abs_lt]; constructor
    · change -((inp p).dl.x0 + (inp p).dl.x1) < _; linarith [a.dl0]
    · change _ < ((inp p).dl.x0 + (inp p).dl.x1); linarith [a.dl1]
  have t6 : 0 < (linkOf p).scatterAngle (linkOf p).d6 := t5.trans_le (scatterAngle_mono a.gme (by rw [← ed6]; linarith))
  have ht5 : 0 < (horR (inp p)).tha + (linkOf p).d5 * p.gme := tha_pos a (by rw [← ed5]; linarith)
  have ht6 : 0 < (horR (inp p)).tha + (linkOf p).d6 * p.gme := tha_pos a (by rw [← ed6, ← ed5]; linarith)
  obtain ⟨s, hs, hsa, hsr, hse, hsh⟩ := scatPrep_ok a
  obtain ⟨h6', s6, e6, -, ea, er, ee, -, -⟩ := ascatC_ok (h := horR (inp p)) (s := s) (a1 := 0.0) (d := (linkOf p).d6) a t6 ht6
    (by rw [hsa]; exact abs_nonneg _) (by rw [hsa, ← ed6, ← ed5]; linarith) hsr hse
  obtain ⟨h5', s5, e5, -⟩ := ascatC_ok (h := horR (inp p)) (s := s6)
    (a1 := ascatFinalR (inp p).wn (inp p).gme (inp p).ens (horR (inp p)).tha (linkOf p).d6 h6') (d := (linkOf p).d5) a t5 ht5
    (by rw [ea, hsa]; exact abs_nonneg _) (by rw [ea, hsa, ← ed5]; linarith) (by rw [er]; exact hsr) (by rw [ee]; exact hse)
  obtain ⟨v6, v5⟩ := scat_values' ht hs e6 e5
  refine ⟨s5, ?_⟩
  unfold scatC
  rw [hs, ok_bind]
  dsimp only
  rw [ed5, ed6, e6, ok_bind]
  dsimp only
  rw [e5, ok_bind, v6, v5]

/-- **C65** A first call within the limits at a distance beyond the horizon: answered, unless the diffraction and the scatter line
are parallel. -/
theorem C65_beyond {p : PropSt ℝ} {d : ℝ} (hm : p.mdp ≠ 0) (h : WithinLimits p) (h5 : 0 < (linkOf p).scatterAngle (linkOf p).d5)
    (h1 : (linkOf p).dlsa ≤ distOf p d) :
    (¬ (linkOf p).Parallel → ∃ q, lrprop d p = .ok q) ∧ ((linkOf p).Parallel → lrprop d p = .error .zeroDivision) := by
  have a := limits_adm h
  obtain ⟨s, hs, hh⟩ := limits_setup h
  obtain ⟨_, ⟨e1, _, e3⟩, _, hemd, _, _, _⟩ := line_spec hs
  have e := runC_far (i := inp p) (h := s.h) (l := s.l) (D := distOf p d)
    (c := { cacheOf p with wlos := false, wscat := false, ascat1 := 0.0 }) (freshCInv _ _ _ _) (by rw [e1]; exact h1)
  rw [hh] at e e3
  obtain ⟨s', hsc⟩ := scat_split a (l := s.l) e3 h5
  rw [lrprop_setup hm, hs, ok_bind, hh]
  rw [hsc] at e
  have ems : ((linkOf p).a6 - (linkOf p).a5') / 200e3 = (linkOf p).ms' := by
    unfold Link.ms' Link.d5 Link.d6
    congr 1; norm_num
  have e47 : (0 : ℝ) < 47.7 * (blank 0 (inp p)).wn := mul_pos (by norm_num) a.wn
  constructor
  · intro hc
    obtain ⟨c, hcc⟩ : ∃ c, scatCoef (blank 0 (inp p)) (horR (inp p)) s.l (linkOf p).d5 (linkOf p).a5' (linkOf p).a6 = .ok c := by
      unfold scatCoef
      by_cases c1 : (linkOf p).a5' < 1000
      · rw [if_pos (by norm_num; exact c1), npLog_ok e47, ok_bind, ems, pyDiv_ok, ok_bind]
        · exact ⟨_, rfl⟩
        · rw [sub_ne_zero, hemd]; exact fun c => hc ⟨c1, c⟩
      · rw [if_neg (by norm_num; exact not_lt.1 c1)]; exact ⟨_, rfl⟩
    rw [hcc, ok_bind] at e
    obtain ⟨c, hc, -⟩ := map_ok.1 e
    rw [hc, ok_bind]
    exact ⟨_, rfl⟩
  · rintro ⟨c1, c2⟩
    have hcc : scatCoef (blank 0 (inp p)) (horR (inp p)) s.l (linkOf p).d5 (linkOf p).a5' (linkOf p).a6 = .error .zeroDivision := by
      unfold scatCoef
      rw [if_pos (by norm_num; exact c1), npLog_ok e47, ok_bind, ems, hemd, c2, sub_self, pyDiv_zero]; rfl
    rw [hcc] at e
    cases hr : runC (inp p) (horR (inp p)) s.l (distOf p d) { cacheOf p with wlos := false, wscat := false, ascat1 := 0.0 } with
    | ok c => rw [hr] at e; cases e
    | error x => rw [hr] at e; cases e; rfl

/-- The smooth link is within the limits and is answered at every distance, so neither coincidence occurs. -/
theorem smooth_limits : WithinLimits smooth := by
  have hs : smoothHorizon 400 1.25e-7 = 80000 := by
    unfold smoothHorizon
    rw [show (2 * 400 / 1.25e-7 : ℝ) = 80000 ^ 2 by norm_num]; exact Real.sqrt_sq (by norm_num)
  have t : TerminalUsable 400 400 80000 (-0.01) 1.25e-7 := by
    refine ⟨by norm_num, ?_, ?_, ?_⟩
    · rw [abs_of_neg] <;> norm_num
    · rw [hs]; norm_num
    · rw [hs]; norm_num
  have e : -(80000 * 1.25e-7 : ℝ) = -0.01 := by norm_num
  refine ⟨?_, ?_, ?_, ?_, ?_, t, ?_, ?_, ?_, ?_, ?_⟩
  · show (0.419 : ℝ) ≤ 1 ∧ (1 : ℝ) ≤ 420; norm_num
  · show (250 : ℝ) ≤ 301 ∧ (301 : ℝ) ≤ 400; norm_num
  · show (75e-9 : ℝ) ≤ 1.25e-7 ∧ (1.25e-7 : ℝ) ≤ 250e-9; norm_num
  · show |(0 : ℝ)| ≤ 4; norm_num
  · show TerminalUsable 400 400 80000 (-(80000 * 1.25e-7)) 1.25e-7; rw [e]; exact t
  · show (0 : ℝ) < 400 ∧ (400 : ℝ) ≤ 20000; norm_num
  · show (0 : ℝ) < 400 ∧ (400 : ℝ) ≤ 20000; norm_num
  · show (0 : ℝ) ≤ 0; exact le_rfl
  · right; show (1 : ℝ) ≤ 4; norm_num
  · left; show 0.025 ≤ √((4 : ℝ) ^ 2 + 0 ^ 2)
    rw [show (4 : ℝ) ^ 2 + 0 ^ 2 = 4 ^ 2 by norm_num, Real.sqrt_sq (by norm_num)]; norm_num

example : WithinLimits smooth ∧ (0 < distOf smooth 50000 ∧ distOf smooth 50000 < (linkOf smooth).dlsa ∧ ¬ (linkOf smooth).FitClash) ∧
    (linkOf smooth).dlsa ≤ distOf smooth 250000 ∧ 0 < (linkOf smooth).scatterAngle (linkOf smooth).d5 ∧ ¬ (linkOf smooth).Parallel := by
  have hs : (linkOf smooth).dlsa = 160000 := by
    show √(2 * 400 / 1.25e-7) + √(2 * 400 / 1.25e-7) = (160000 : ℝ)
    rw [show (2 * 400 / 1.25e-7 : ℝ) = 80000 ^ 2 by norm_num, Real.sqrt_sq (by norm_num)]; norm_num
  have d1 : distOf smooth 50000 = 50000 := rfl
  have d2 : distOf smooth 250000 = 250000 := rfl
  have m : smooth.mdp ≠ 0 := by decide
  have h5 : 0 < (linkOf smooth).scatterAngle (linkOf smooth).d5 := by
    show (0 : ℝ) < -(80000 * 1.25e-7) + -0.01 + (80000 + 80000 + 200000) * 1.25e-7
    norm_num
  refine ⟨smooth_limits, ⟨by rw [d1]; norm_num, by rw [d1, hs]; norm_num, fun c => ?_⟩, by rw [d2, hs]; norm_num, h5, fun c => ?_⟩
  · obtain ⟨q, hq⟩ := smooth_total 50000 (by norm_num)
    rw [(C65_sight m smooth_limits (by rw [d1]; norm_num) (by rw [d1, hs]; norm_num)).2 c] at hq
    cases hq
  · obtain ⟨q, hq⟩ := smooth_total 250000 (by norm_num)
    rw [(C65_beyond m smooth_limits h5 (by rw [d2, hs]; norm_num)).2 c] at hq
    cases hq

/-! ### The point-to-point runner -/

/-- The ground impedance of the runner from 20 MHz on. -/
theorem ground_limits {x : ℝ} (h0 : 0 < x) (h1 : x ≤ 4.5) (ipol : ℤ) :
    ∃ z : Cx ℝ, (if ipol ≠ 0 then Cx.div (Cx.sqrt (Cx.sub ⟨15.0, x⟩ ⟨1.0, 0.0⟩)) ⟨15.0, x⟩ else pure (Cx.sqrt (Cx.sub ⟨15.0, x⟩ ⟨1.0, 0.0⟩))) = .ok z ∧
      |z.im| ≤ z.re ∧ (z.im ≠ 0 ∨ 1 ≤ z.re) ∧ 0.025 ≤ √(z.re ^ 2 + z.im ^ 2) := by
  have hw : (Cx.sub ⟨15.0, x⟩ ⟨1.0, 0.0⟩ : Cx ℝ) = ⟨14, x⟩ := by simp only [Cx.sub]; norm_num
  obtain ⟨m, hm⟩ : ∃ m, m = √(14 * 14 + x * x) := ⟨_, rfl⟩
  have hm2 : m * m = 14 * 14 + x * x := by rw [hm]; exact Real.mul_self_sqrt (by positivity)
  have hm14 : 14 ≤ m := by rw [hm]; exact sqrt_ge_of (by norm_num) (by nlinarith)
  have hz : Cx.sqrt (⟨14, x⟩ : Cx ℝ) = ⟨√((m + 14) / 2), √((m - 14) / 2)⟩ := by
    rw [cxsqrt_real]
    try dsimp only
    rw [cxabs_real]
    dsimp only
    rw [← hm, if_neg (by rw [zero_lit]; exact not_lt.2 h0.le)]
    norm_num [rsqrt]
  obtain ⟨u, hu⟩ : ∃ u, u = √((m + 14) / 2) := ⟨_, rfl⟩
  obtain ⟨v, hv⟩ : ∃ v, v = √((m - 14) / 2) := ⟨_, rfl⟩
  have hu2 : u * u = (m + 14) / 2 := by rw [hu]; exact Real.mul_self_sqrt (by linarith)
  have hv2 : v * v = (m - 14) / 2 := by rw [hv]; exact Real.mul_self_sqrt (by linarith)
  have hu0 : 0 < u := by rw [hu]; exact Real.sqrt_pos.2 (by linarith)
  have hv0 : 0 ≤ v := by rw [hv]; exact Real.sqrt_nonneg _
  have huv : v ≤ u := by rw [hu, hv]; exact Real.sqrt_le_sqrt (by linarith)
  have huv2 : 2 * (u * v) = x := by
    have : (2 * (u * v)) ^ 2 = x ^ 2 := by
      calc (2 * (u * v)) ^ 2 = 4 * ((u * u) * (v * v)) := by ring
        _ = x ^ 2 := by rw [hu2, hv2]; nlinarith
    exact (sq_eq_sq₀ (by positivity) h0.le).1 this
  rw [hw, hz, ← hu, ← hv]
  by_cases hp : ipol ≠ 0
  · rw [if_pos hp]
    have hN : (⟨15.0, x⟩ : Cx ℝ).normSq = 225 + x * x := by rw [normSq_real]; norm_num
    have hNp : 0 < 225 + x * x := by positivity
    have e : Cx.div (⟨u, v⟩ : Cx ℝ) ⟨15.0, x⟩ = .ok ⟨(u * 15.0 + v * x) / (225 + x * x), (v * 15.0 - u * x) / (225 + x * x)⟩ := by
      rw [cxdiv_real, hN]
      dsimp only
      rw [pyDiv_ok hNp.ne', ok_bind, pyDiv_ok hNp.ne', ok_bind]
    refine ⟨_, e, ?_, .inl ?_, ?_⟩
    · dsimp only
      rw [abs_div, abs_of_pos hNp]
      refine div_le_div_of_nonneg_right ?_ hNp.le
      rw [abs_le]
      constructor
      · norm_num at h1 ⊢; nlinarith
      · norm_num at h1 ⊢; nlinarith
    · dsimp only
      refine div_ne_zero ?_ hNp.ne'
      have : v * 15.0 - u * x = v * (15 - 2 * (u * u)) := by rw [← huv2]; norm_num; ring
      rw [this, hu2]
      refine mul_ne_zero ?_ (by linarith)
      intro c; rw [c] at huv2; linarith
    · dsimp only
      refine sqrt_ge_of (by norm_num) ?_
      have : ((u * 15.0 + v * x) / (225 + x * x)) ^ 2 + ((v * 15.0 - u * x) / (225 + x * x)) ^ 2 = m / (225 + x * x) := by
        have : (u * 15 + v * x) ^ 2 + (v * 15 - u * x) ^ 2 = (u * u + v * v) * (225 + x * x) := by ring
        rw [div_pow, div_pow, ← add_div, show (15.0 : ℝ) = 15 by norm_num, this, hu2, hv2]
        field_simp; ring
      rw [this, le_div_iff₀ hNp]
      norm_num at h1 ⊢; nlinarith
  · rw [if_neg hp]
    have hu1 : 1 ≤ u := by nlinarith
    refine ⟨_, rfl, ?_, .inr hu1, ?_⟩
    · dsimp only; rw [abs_of_nonneg hv0]; exact huv
    · dsimp only
      refine sqrt_ge_of (by norm_num) ?_
      norm_num; nlinarith

/-- After a successful preparation the rest of the run cannot fail. -/
theorem run_rest {p s q0 : PropSt ℝ} {profile : List ℝ} (qc qr : List Int) (hs : p2pSetup p profile = .ok s) (hq0 : qlrpflPrep s = .ok q0)
    {q : PropSt ℝ} (hq : lrprop 0.0 q0 = .ok q) (hm : q0.mdp = -1) (hw : 0 < q0.wn) (h0 : 0 ≤ q0.he.x0) (h1 : 0 ≤ q0.he.x1) (hd : 0 < q0.dist)
    (hh : 0 ≤ q0.dh) : ∃ rows msgs r, itmlogicP2PAt qc qr p profile = .ok (rows, msgs, r) := by
  have hqq : qlrpfl s = .ok q := by unfold qlrpfl; rw [hq0, ok_bind]; exact hq
  have P := p2pPrep_ok hs hqq
  have hdist := (lrprop_dist hq).1
  rw [if_neg (by omega)] at hdist
  have f : q.wn = q0.wn ∧ q.he = q0.he ∧ q.dh = q0.dh := by
    obtain ⟨_, _, _, _, _, _, _, rfl⟩ := lrprop_frame hq
    exact ⟨rfl, rfl, rfl⟩
  obtain ⟨a, har, -⟩ := C18_aref_nonneg hq
  obtain ⟨zr, hzr, -⟩ := C04_qerfi_total (qr.map percent)
  obtain ⟨zc, hzc, -⟩ := C04_qerfi_total (qc.map percent)
  obtain ⟨fs, hfs⟩ := freeSpace_total (wn := q.wn) (dist := q.dist) (by rw [f.1]; exact hw) (by rw [hdist]; exact hd)
  have hans : ∀ zt zc : ℝ, ∃ a, freshAns zt 0.0 zc q = .ok a := fun zt zc =>
    freshAns_total P.inv P.klim P.mdvar har (by rw [f.1]; exact hw) (by rw [f.2.1]; exact h0) (by rw [f.2.1]; exact h1) (by rw [hdist]; exact hd.le)
      (by rw [f.2.2]; exact hh) zt 0.0 zc
  obtain ⟨rows, r, hrows⟩ := p2pRows_total (fs := fs) (qc.zip zc) (qr.zip zr) P.inv hans
  obtain ⟨msgs, hmsgs⟩ := C48_never_raises ordered_real hqq
  refine ⟨rows, msgs, r, ?_⟩
  unfold itmlogicP2PAt
  rw [hs, ok_bind, hzr, ok_bind, hzc, ok_bind, hqq, ok_bind, hfs, ok_bind, hmsgs, ok_bind, hrows, ok_bind]
  rfl

/-- **C65** The point-to-point runner, 20 MHz to 20 GHz, antennas of 0.5 to 3000 m, any profile of at least two points over a positive
distance: the preparation never fails, and if it arrives at a path within the limits the run is answered, up to the coincidences. -/
theorem C65_p2p {p : PropSt ℝ} {profile : List ℝ} (qc qr : List Int) (hl : 2 ≤ profile.length) (hd : 0 < p.d)
    (hf : 20 ≤ p.fmhz ∧ p.fmhz ≤ 20000) (hg0 : 0.5 ≤ p.hg.x0 ∧ p.hg.x0 ≤ 3000) (hg1 : 0.5 ≤ p.hg.x1 ∧ p.hg.x1 ≤ 3000) :
    ∃ s q, p2pSetup p profile = .ok s ∧ qlrpflPrep s = .ok q ∧ q.dist = p.d * 1000 ∧
      (PathOk q → (q.dist < (linkOf q).dlsa ∨ 0 < (linkOf q).scatterAngle (linkOf q).d5) →
        ((linkOf q).NoClash q.dist → ∃ rows msgs r, itmlogicP2PAt qc qr p profile = .ok (rows, msgs, r)) ∧
        (¬ (linkOf q).NoClash q.dist → itmlogicP2PAt qc qr p profile = .error .zeroDivision)) := by
  obtain ⟨n, hn⟩ : ∃ n : ℕ, profile.length = n + 1 := ⟨profile.length - 1, by omega⟩
  have hn1 : 1 ≤ n := by omega
  obtain ⟨wn, ewn⟩ : ∃ wn, wn = p.fmhz / 47.7 := ⟨_, rfl⟩
  have hw : 0.419 ≤ wn ∧ wn ≤ 420 := by
    rw [ewn, le_div_iff₀ (by norm_num), div_le_iff₀ (by norm_num)]
    constructor
    · norm_num; linarith [hf.1]
    · norm_num; linarith [hf.2]
  have hwp : 0 < wn := lt_of_lt_of_le (by norm_num) hw.1
  obtain ⟨x, ex⟩ : ∃ x : ℝ, x = 376.62 * 0.005 / wn := ⟨_, rfl⟩
  have hx0 : 0 < x := by rw [ex]; positivity
  have hx1 : x ≤ 4.5 := by
    rw [ex, div_le_iff₀ hwp]; have := hw.1; norm_num at this ⊢; linarith
  obtain ⟨z, ez, z1, z2, z3⟩ := ground_limits hx0 hx1 p.ipol
  have hnn : (0:ℝ) < n := by exact_mod_cast hn1
  obtain ⟨xi, exi⟩ : ∃ xi : ℝ, xi = p.d * 1000.0 / n := ⟨_, rfl⟩
  have hxi : 0 < xi := by rw [exi]; positivity
  have hsys : p2pSys p.fmhz p.d p.ipol profile = .ok (xi, z) := by
    unfold p2pSys
    dsimp only
    have e1 : (PyNum.ofInt ((profile.length : ℤ) - 1) : ℝ) = n := by rw [rofInt, hn]; push_cast; ring
    rw [if_neg (by rw [zero_lit]; exact not_le.2 hd), ← ewn, e1, pyDiv_ok hnn.ne', ok_bind, ← exi]
    have e2 : groundZq (15.0 : ℝ) 0.005 wn = .ok ⟨15.0, x⟩ := by
      unfold groundZq; rw [pyDiv_ok hwp.ne', ok_bind, ex]; rfl
    rw [e2, ok_bind]
    by_cases hp : p.ipol ≠ 0
    · rw [if_pos hp] at ez ⊢
      rw [ez, ok_bind, pure_ok]
    · rw [if_neg hp] at ez ⊢
      rw [ez, ok_bind, pure_ok]
  obtain ⟨κ, eκ⟩ : ∃ κ : ℝ, κ = effCurvature 157e-9 314.0 := ⟨_, rfl⟩
  obtain ⟨hκ1, hκ2⟩ := curvature_range (n := 314.0) (by norm_num) (by norm_num)
  rw [← eκ] at hκ1 hκ2
  have hκ : 0 < κ := lt_of_lt_of_le (by norm_num) hκ1
  obtain ⟨s, hs, es⟩ : ∃ s, p2pSetup p profile = .ok s ∧ s.pfl = { np := profile.length - 1, xi, z := profile } ∧ s.hg = p.hg ∧
      s.wn = wn ∧ s.gme = κ ∧ s.ens = 314.0 ∧ s.zgnd = z := by
    rw [p2pSetup_eq, hsys, ok_bind]
    exact ⟨_, rfl, rfl, rfl, ewn.symm, eκ.symm, rfl, rfl⟩
  obtain ⟨sp, sh, sw, sg, sn, sz⟩ := es
  have snp : s.pfl.np = n := by rw [sp]; show (profile.length : ℤ) - 1 = n; rw [hn]; push_cast; ring
  have sx : 0 < s.pfl.xi := by rw [sp]; exact hxi
  have sl : n < s.pfl.z.length := by rw [sp]; show n < profile.length; omega
  have hp0 : 0 < s.hg.x0 := by rw [sh]; linarith [hg0.1]
  have hp1 : 0 < s.hg.x1 := by rw [sh]; linarith [hg1.1]
  have hpκ : 0 < s.gme := by rw [sg]; exact hκ
  obtain ⟨q, hq, c0, c1, c2, c3, c4, c5, c6, -⟩ := C39_total hn1 snp sx sl hp0 hp1 hpκ
  have fr : q.wn = s.wn ∧ q.gme = s.gme ∧ q.ens = s.ens ∧ q.zgnd = s.zgnd := by
    obtain ⟨_, _, _, _, _, rfl⟩ := qlrpflPrep_frame hq
    rw [prepMarks_eq]; exact ⟨rfl, rfl, rfl, rfl⟩
  rw [sw, sg, sn, sz] at fr
  obtain ⟨qw, qg, qn, qz⟩ := fr
  have hdist : q.dist = p.d * 1000 := by rw [c5, sp]; show n * xi = _; rw [exi]; field_simp; norm_num
  refine ⟨s, q, hs, hq, hdist, fun P hsc => ?_⟩
  have W : WithinLimits q := by
    refine ⟨by rw [qw]; exact hw, by rw [qn]; norm_num, by rw [qg]; norm_num at hκ1 hκ2 ⊢; constructor <;> linarith,
      by rw [qz]; exact z1, P.t0, P.t1, ⟨by linarith, P.he0⟩, ⟨by linarith, P.he1⟩, c4, ?_, ?_⟩
    · rw [qz]; exact z2
    · left; rw [qz]; exact z3
  have hm : q.mdp ≠ 0 := by omega
  have hdo : distOf q 0.0 = q.dist := by unfold distOf; rw [if_neg (by omega)]
  have hdp : 0 < q.dist := by rw [hdist]; positivity
  have key : ((linkOf q).NoClash q.dist → ∃ r, lrprop 0.0 q = .ok r) ∧ (¬ (linkOf q).NoClash q.dist → lrprop 0.0 q = .error .zeroDivision) := by
    unfold Link.NoClash
    by_cases c : q.dist < (linkOf q).dlsa
    · rw [if_pos c, not_not]
      exact C65_sight hm W (by rw [hdo]; exact hdp) (by rw [hdo]; exact c)
    · rw [if_neg c, not_not]
      exact C65_beyond hm W (hsc.resolve_left c) (by rw [hdo]; exact not_lt.1 c)
  constructor
  · intro hr
    obtain ⟨r, hr⟩ := key.1 hr
    exact run_rest qc qr hs hq hr c6 (by rw [qw]; exact hwp) (by linarith) (by linarith) hdp c4
  · intro hr
    have e := key.2 hr
    obtain ⟨zr, hzr, -⟩ := C04_qerfi_total (qr.map percent)
    obtain ⟨zc, hzc, -⟩ := C04_qerfi_total (qc.map percent)
    have hqq : qlrpfl s = .error .zeroDivision := by unfold qlrpfl; rw [hq, ok_bind]; exact e
    unfold itmlogicP2PAt
    rw [hs, ok_bind, hzr, ok_bind, hzc, ok_bind, hqq]
    rfl

/-- Level paths with usable antennas are within the limits, and rays over their horizons cross. -/
theorem smooth_pathOk {q : PropSt ℝ} (S : SmoothEarth (inp q)) (hg0 : 0.5 ≤ q.hg.x0 ∧ q.hg.x0 ≤ 3000) (hg1 : 0.5 ≤ q.hg.x1 ∧ q.hg.x1 ≤ 3000) :
    PathOk q ∧ 0 < (linkOf q).scatterAngle (linkOf q).d5 := by
  have g1 : (75e-9 : ℝ) ≤ q.gme := S.glo
  have g2 : q.gme ≤ (250e-9 : ℝ) := S.ghi
  have gp : 0 < q.gme := lt_of_lt_of_le (by norm_num) g1
  have hdl : q.dl.x0 + q.dl.x1 ≤ 300e3 := S.dla
  have h0 : 0 < q.he.x0 := S.he0
  have h1 : 0 < q.he.x1 := S.he1
  have e0 : q.dl.x0 = √(2 * q.he.x0 / q.gme) := S.dl0
  have e1 : q.dl.x1 = √(2 * q.he.x1 / q.gme) := S.dl1
  have p0 : 0 ≤ q.dl.x0 := by rw [e0]; exact Real.sqrt_nonneg _
  have p1 : 0 ≤ q.dl.x1 := by rw [e1]; exact Real.sqrt_nonneg _
  have term : ∀ {g he dl the : ℝ}, 0.5 ≤ g ∧ g ≤ 3000 → 0 < he → dl = √(2 * he / q.gme) → the = -(q.gme * dl) → 0 ≤ dl → dl ≤ 300e3 →
      TerminalUsable g he dl the q.gme ∧ he ≤ 20000 := by
    intro g he dl the hg hhe hdl hthe h0 h1
    have b : q.gme * dl ≤ 250e-9 * 300e3 := mul_le_mul g2 h1 h0 (by norm_num)
    have b0 : 0 ≤ q.gme * dl := mul_nonneg gp.le h0
    refine ⟨⟨hg, ?_, ?_, ?_⟩, ?_⟩
    · rw [hthe, abs_neg, abs_of_nonneg b0]; norm_num at b ⊢; linarith
    · unfold smoothHorizon; rw [← hdl]; norm_num; linarith
    · unfold smoothHorizon; rw [← hdl]; linarith
    · have e : dl * dl = 2 * he / q.gme := by rw [hdl]; exact Real.mul_self_sqrt (by positivity)
      have : he = q.gme * dl * dl / 2 := by rw [mul_assoc, e]; field_simp
      have b2 : q.gme * dl * dl ≤ 250e-9 * 300e3 * 300e3 := mul_le_mul b h1 h0 (by norm_num)
      rw [this]; norm_num at b2 ⊢; linarith
  obtain ⟨t0, l0⟩ := term (g := q.hg.x0) hg0 h0 e0 S.the0 p0 (by linarith)
  obtain ⟨t1, l1⟩ := term (g := q.hg.x1) hg1 h1 e1 S.the1 p1 (by linarith)
  have P : PathOk q := ⟨t0, t1, l0, l1⟩
  have h5 : 0 < (linkOf q).scatterAngle (linkOf q).d5 := by
    show 0 < q.the.x0 + q.the.x1 + (q.dl.x0 + q.dl.x1 + 200000) * q.gme
    rw [show q.the.x0 = -(q.gme * q.dl.x0) from S.the0, show q.the.x1 = -(q.gme * q.dl.x1) from S.the1]
    linarith
  exact ⟨P, h5⟩

/-- The level path meets the hypotheses, and since it is answered no coincidence occurs. -/
example : ∃ s q, p2pSetup levelLink [0, 0] = .ok s ∧ qlrpflPrep s = .ok q ∧ PathOk q ∧ 0 < (linkOf q).scatterAngle (linkOf q).d5 ∧
    (linkOf q).NoClash q.dist := by
  obtain ⟨s, q, hs, hq, S, -⟩ := level_prep levelLink_path 0
  obtain ⟨s', q', hs', hq', -, h⟩ := C65_p2p (p := levelLink) (profile := [0, 0]) [50] [50] le_rfl (by norm_num [levelLink])
    (by norm_num [levelLink]) (by norm_num [levelLink]) (by norm_num [levelLink])
  rw [hs, ok_inj] at hs'; subst hs'
  rw [hq, ok_inj] at hq'; subst hq'
  have hg : q.hg = levelLink.hg := by
    obtain ⟨_, _, _, _, _, rfl⟩ := qlrpflPrep_frame hq
    obtain ⟨_, _, _, rfl⟩ := p2pSetup_ok hs
    rw [prepMarks_eq]
  obtain ⟨P, h5⟩ := smooth_pathOk S (by rw [hg]; norm_num [levelLink]) (by rw [hg]; norm_num [levelLink])
  refine ⟨s, q, hs, hq, P, h5, ?_⟩
  by_contra c
  obtain ⟨rows, msgs, r, hr⟩ := level_run levelLink_path 0 [50] [50]
  rw [(h P (.inr h5)).2 c] at hr
  cases hr

/-! ### Outside the limits -/

theorem npLog_nan {x : ℝ} (h : x ≤ 0) : npLog x = .error .nonFinite := by
  unfold npLog; rw [if_neg (by rw [zero_lit]; exact not_lt.2 h)]

theorem adiffC_nan {mdp : Int} {i : LrIn ℝ} {h : Horizon ℝ} {c : DiffC ℝ} {d : ℝ} (a : Adm i) (hd : 0 < d)
    (hds : h.dla < d) (hth : 0 < h.tha + d * i.gme) (hq : pathQ i h c d ≤ 0) : adiffC mdp i h c d = .error .nonFinite := by
  have hds' : 0 < d - h.dla := by linarith
  have ha : 0 < pathA i h d := div_pos hds' hth
  have hwa : 0 < pathWa i h d := rpow_third_pos (mul_pos ha a.wn)
  have hdl0 := a.dl0; have hdl1 := a.dl1
  unfold adiffC adiff
  rw [if_neg (by rw [pyEq_real]; intro e; rw [e] at hd; exact absurd hd (by norm_num))]
  unfold adiffParts adiffWeight
  simp only [need, ok_bind, lit_eq, pyMin_real, rexp, npow_real, bind_assoc]
  change (do
    let x ← 0.0795775 * i.wn * (d - h.dla) * (h.tha + d * i.gme) ^ 2 * i.dl.x0 /! (d - h.dla + i.dl.x0)
    let k0 ← aknfe x
    let x ← 0.0795775 * i.wn * (d - h.dla) * (h.tha + d * i.gme) ^ 2 * i.dl.x1 /! (d - h.dla + i.dl.x1)
    let k1 ← aknfe x
    let a ← (d - h.dla) /! (h.tha + d * i.gme)
    let wa ← pyPow (a * i.wn) third
    let pk ← c.qk /! wa
    let l ← npLog ((1.607 - pk) * 151.0 * wa * (h.tha + d * i.gme) + c.xht)
    let y ← (pure (0.05751 * ((1.607 - pk) * 151.0 * wa * (h.tha + d * i.gme) + c.xht) - 4.343 * l - c.aht, k0 + k1) : Py (ℝ × ℝ))
    let z ← c.xd1 /! d
    let s ← mathSqrt ((c.wd1 + z) * min (dhAt i.dh d * i.wn) 6283.2)
    let wd ← (25.1 : ℝ) /! (25.1 + s)
    let r ← (pure (y.1 * wd + (1.0 - wd) * y.2 + c.afo, _) : Py (ℝ × PropSt ℝ))
    pure r.1) = _
  rw [pyDiv_ok (by positivity), ok_bind, aknfe_ok, ok_bind, pyDiv_ok (by positivity), ok_bind, aknfe_ok, ok_bind,
    pyDiv_ok hth.ne', ok_bind]
  rw [show (d - h.dla) / (h.tha + d * i.gme) = pathA i h d from rfl, pyPow_third (mul_pos ha a.wn).le, ok_bind]
  rw [show (pathA i h d * i.wn) ^ (third : ℝ) = pathWa i h d from rfl, pyDiv_ok hwa.ne', ok_bind]
  rw [show (1.607 - c.qk / pathWa i h d) * 151.0 * pathWa i h d * (h.tha + d * i.gme) + c.xht = pathQ i h c d from rfl, npLog_nan hq]
  rfl

theorem lrprop_nan {p : PropSt ℝ} {d : ℝ} (hm : p.mdp ≠ 0) (a : Adm (inp p))
    (hq : ∀ f0 f1, pathQ (inp p) (horR (inp p)) (diffR p.mdp (inp p) f0 f1) (d3R (inp p) (horR (inp p))) ≤ 0) :
    lrprop d p = .error .nonFinite := by
  have g3 := d3R_gt a (horR (inp p))
  have p3 : 0 < d3R (inp p) (horR (inp p)) := (horR_dla_pos a).trans g3
  have hs : setupC p.mdp (inp p) = .error .nonFinite := by
    obtain ⟨f0, f1, -, -, hc⟩ := diffC_ok (mdp := p.mdp) (h := horR (inp p)) a (horR_dlsa_pos a).le
    have e3 := adiffC_nan (mdp := p.mdp) (c := diffR p.mdp (inp p) f0 f1) a p3 g3 (tha_pos a g3) (hq f0 f1)
    unfold setupC
    rw [horC_ok a.he0.le a.he1.le a.gme, ok_bind, hc, ok_bind]
    change (do let l ← lineC p.mdp (inp p) (horR (inp p)) (diffR p.mdp (inp p) f0 f1); _) = _
    unfold lineC lrLineWith
    simp only [lit_eq, npow_real, pyMax_real, rabs]
    rw [pyPow_ok (mul_pos a.wn (pow_pos a.gme 2)).le (fun e => absurd e.1 (mul_pos a.wn (pow_pos a.gme 2)).ne'), ok_bind]
    change (do
      let l ← (do
        let a3 ← adiffC p.mdp (inp p) (horR (inp p)) (diffR p.mdp (inp p) f0 f1) (d3R (inp p) (horR (inp p)))
        _ : Py (DiffLine ℝ))
      _) = _
    rw [e3]; rfl
  rw [lrprop_setup hm, hs]; rfl

/-- A hilltop at 48 MHz: an obstacle 3 m higher stands 30 m in front of an antenna 450 m above the surroundings; the other terminal
looks over smooth earth. -/
noncomputable def hilltopIn : LrIn ℝ :=
  { smoothIn with he := ⟨450, 400⟩, dl := ⟨30, 80000⟩, the := ⟨0.1, -0.01⟩, zgnd := ⟨0.2, 0.15⟩ }

noncomputable def hilltop (mdp : Int) : PropSt ℝ := blank mdp hilltopIn

/-- **C65** (outside the limits) On the hilltop only the lower limit of the horizon distance is violated (a warning), and the reference
attenuation is not a number, at any distance. -/
theorem C65_outside {mdp : Int} (hm : mdp ≠ 0) (d : ℝ) :
    lrprop d (hilltop mdp) = .error .nonFinite ∧ SystemOk (hilltop mdp) ∧
      TerminalOk (hilltop mdp).hg.x1 (hilltop mdp).he.x1 (hilltop mdp).dl.x1 (hilltop mdp).the.x1 (hilltop mdp).gme ∧
      (1 ≤ (hilltop mdp).hg.x0 ∧ (hilltop mdp).hg.x0 ≤ 1000) ∧ |(hilltop mdp).the.x0| ≤ 0.2 := by
  have e1 : hilltopIn.wn = 1 := by unfold hilltopIn smoothIn tangentIn; norm_num
  have e2 : hilltopIn.gme = 1.25e-7 := by unfold hilltopIn smoothIn tangentIn; norm_num
  have a : Adm hilltopIn := by
    refine ⟨?_, ?_, ?_, ?_, ?_, ?_, ?_, ?_, ?_, ?_⟩ <;> unfold hilltopIn smoothIn tangentIn <;> norm_num
  have s80 : √(2 * 400 / 1.25e-7 : ℝ) = 80000 := by
    rw [show (2 * 400 / 1.25e-7 : ℝ) = 80000 ^ 2 by norm_num]; exact Real.sqrt_sq (by norm_num)
  obtain ⟨x, hx⟩ : ∃ x, x = √(2 * 450 / 1.25e-7 : ℝ) := ⟨_, rfl⟩
  have hx1 : 84000 ≤ x := by rw [hx]; exact sqrt_ge_of (by norm_num) (by norm_num)
  have hx2 : x ≤ 85000 := by rw [hx]; exact Real.sqrt_le_iff.2 ⟨by norm_num, by norm_num⟩
  have hH : horR hilltopIn = ⟨⟨x, 80000⟩, x + 80000, 80030, 0.09⟩ := by
    unfold horR
    rw [e2, show hilltopIn.he = ⟨450, 400⟩ from rfl, show hilltopIn.dl = ⟨30, 80000⟩ from rfl, show hilltopIn.the = ⟨0.1, -0.01⟩ from rfl]
    simp only
    rw [s80, ← hx]
    norm_num
  have hxae : xaeR hilltopIn = 40000 := tangent_xae (x := 80000) (by norm_num)
  have h3 : d3R hilltopIn (horR hilltopIn) = x + 80000 := by
    unfold d3R; rw [hxae, hH]; dsimp only
    refine max_eq_left ?_
    norm_num; linarith
  have hz : hilltopIn.zgnd.abs = 0.25 := by
    rw [cxabs_real, show hilltopIn.zgnd = ⟨0.2, 0.15⟩ from rfl]
    dsimp only
    rw [show (0.2 * 0.2 + 0.15 * 0.15 : ℝ) = 0.25 ^ 2 by norm_num, Real.sqrt_sq (by norm_num)]
  have w0 : termWa 1 30 450 = 1 := by
    unfold termWa termA
    rw [show (0.5 * 30 ^ 2 / 450 * 1 : ℝ) = 1 by norm_num, Real.one_rpow]
  have hq : ∀ f0 f1, pathQ hilltopIn (horR hilltopIn) (diffR mdp hilltopIn f0 f1) (d3R hilltopIn (horR hilltopIn)) ≤ 0 := by
    intro f0 f1
    rw [h3, hH]
    unfold pathQ pathWa pathA diffR
    rw [hz, e1, e2, show hilltopIn.he = ⟨450, 400⟩ from rfl, show hilltopIn.dl = ⟨30, 80000⟩ from rfl]
    dsimp only
    have t0 : termQ 1 (1.0 / 0.25) 30 450 = -10840.29 := by
      unfold termQ termPk; rw [w0]; unfold termA; norm_num
    have t1 : termQ 1 (1.0 / 0.25) 80000 400 ≤ 500 := by
      unfold termQ termPk; rw [termWa_smooth]; unfold termA; norm_num
    rw [t0, mul_one]
    have hth : 0.09 + (x + 80000) * 1.25e-7 ≤ 0.12 := by norm_num at hx2 ⊢; linarith
    have hth0 : 0.1 ≤ 0.09 + (x + 80000) * 1.25e-7 := by norm_num at hx1 ⊢; linarith
    generalize 0.09 + (x + 80000) * 1.25e-7 = th at *
    have hA0 : 0 < (x + 80000 - 80030) / th := div_pos (by linarith) (by norm_num at hth0; linarith)
    have hA : (x + 80000 - 80030) / th ≤ 100 ^ 3 := by
      rw [div_le_iff₀ (by norm_num at hth0; linarith)]; norm_num at hth0 ⊢; linarith
    have hwa : ((x + 80000 - 80030) / th) ^ (third : ℝ) ≤ 100 := by
      rw [← rpow_cube (by norm_num : (0:ℝ) ≤ 100)]
      exact Real.rpow_le_rpow hA0.le hA (by rw [third_real]; norm_num)
    have hwp := rpow_third_pos hA0
    generalize ((x + 80000 - 80030) / th) ^ (third : ℝ) = wa at *
    have e : (1.607 - 1.0 / 0.25 / wa) * 151.0 * wa * th = (1.607 * wa - 4) * 151 * th := by
      have := hwp.ne'
      rw [show (1.0 / 0.25 : ℝ) = 4 by norm_num, show (151.0 : ℝ) = 151 by norm_num]
      field_simp
    rw [e]
    have : (1.607 * wa - 4) * 151 * th ≤ 160.7 * 151 * 0.12 := by
      norm_num at hth hth0 ⊢
      nlinarith
    norm_num at this t1 ⊢
    linarith
  refine ⟨lrprop_nan hm a hq, ⟨?_, ?_, ?_, ?_⟩, ⟨?_, ?_, ?_, ?_⟩, ?_, ?_⟩
  · show 0.838 ≤ hilltopIn.wn ∧ hilltopIn.wn ≤ 210; rw [e1]; norm_num
  · show 250 ≤ hilltopIn.ens ∧ hilltopIn.ens ≤ 400; unfold hilltopIn smoothIn tangentIn; norm_num
  · show 75e-9 ≤ hilltopIn.gme ∧ hilltopIn.gme ≤ 250e-9; rw [e2]; norm_num
  · show |(0.15 : ℝ)| ≤ 0.2; rw [abs_of_pos] <;> norm_num
  · show 1 ≤ hilltopIn.hg.x1 ∧ hilltopIn.hg.x1 ≤ 1000; unfold hilltopIn smoothIn tangentIn; norm_num
  · show |(-0.01 : ℝ)| ≤ 0.2; rw [abs_of_neg] <;> norm_num
  · show 0.1 * smoothHorizon 400 hilltopIn.gme ≤ 80000; unfold smoothHorizon; rw [e2, s80]; norm_num
  · show 80000 ≤ 3 * smoothHorizon 400 hilltopIn.gme; unfold smoothHorizon; rw [e2, s80]; norm_num
  · show 1 ≤ hilltopIn.hg.x0 ∧ hilltopIn.hg.x0 ≤ 1000; unfold hilltopIn smoothIn tangentIn; norm_num
  · show |(0.1 : ℝ)| ≤ 0.2; rw [abs_of_pos] <;> norm_num

/-! ### The coincidence occurs -/

/-- Two 100 m antennas at 200 MHz, horizons at three times the smooth-earth distance (the documented limit) on the tangent. -/
noncomputable def clashIn : LrIn ℝ :=
  { smoothIn with wn := 8 / 1.908, hg := ⟨100, 100⟩, he := ⟨100, 100⟩, dl := ⟨120000, 120000⟩, the := ⟨-0.015, -0.015⟩ }

noncomputable def clash (mdp : Int) : PropSt ℝ := blank mdp clashIn

theorem rpow_third_eq {x w : ℝ} (hw : 0 ≤ w) (h : x = w ^ 3) : x ^ (1 / 3 : ℝ) = w := by
  rw [h, ← Real.rpow_natCast, ← Real.rpow_mul hw]; norm_num

set_option maxHeartbeats 1000000 in
theorem clash_fit (mdp : Int) : (linkOf (clash mdp)).dlsa = 80000 ∧ (linkOf (clash mdp)).FitClash := by
  obtain ⟨L, eL⟩ : ∃ L, L = linkOf (clash mdp) := ⟨_, rfl⟩
  rw [← eL]
  have w1 : L.wn = 8 / 1.908 := by rw [eL]; rfl
  have w2 : L.he₀ = 100 := by rw [eL]; rfl
  have w3 : L.he₁ = 100 := by rw [eL]; rfl
  have w4 : L.dl₀ = 120000 := by rw [eL]; rfl
  have w5 : L.dl₁ = 120000 := by rw [eL]; rfl
  have w6 : L.the₀ = -0.015 := by rw [eL]; rfl
  have w7 : L.the₁ = -0.015 := by rw [eL]; rfl
  have w8 : L.gme = 1.25e-7 := by rw [eL]; rfl
  have w9 : L.dh = 0 := by rw [eL]; rfl
  have w10 : L.z = ⟨4, 0⟩ := by rw [eL]; rfl
  have z1 : L.zInv = 0.25 := by
    unfold Link.zInv
    rw [w10, show (⟨4, 0⟩ : ℂ) = ((4 : ℝ) : ℂ) from rfl, Complex.norm_real]; norm_num
  have s1 : L.dlsa = 80000 := by
    unfold Link.dlsa smoothHorizon
    rw [w2, w3, w8, show (2 * 100 / 1.25e-7 : ℝ) = 40000 ^ 2 by norm_num, Real.sqrt_sq (by norm_num)]; norm_num
  have s2 : L.dla = 240000 := by unfold Link.dla; rw [w4, w5]; norm_num
  have s3 : L.tha = -0.03 := by unfold Link.tha; rw [s2, w6, w7, w8]; norm_num
  -- the cube root of 1.908
  obtain ⟨r, er⟩ : ∃ r : ℝ, r = (1.908 : ℝ) ^ (1 / 3 : ℝ) := ⟨_, rfl⟩
  have r0 : 0 < r := by rw [er]; positivity
  have r3 : r ^ 3 = 1.908 := by
    rw [er, ← Real.rpow_natCast, ← Real.rpow_mul (by norm_num)]; norm_num
  have r1 : 1.24 ≤ r := by
    by_contra h; push Not at h
    have : r ^ 3 < 1.24 ^ 3 := pow_lt_pow_left₀ h r0.le (by norm_num)
    norm_num at this r3; linarith
  have r2 : r ≤ 1.2405 := by
    by_contra h; push Not at h
    have : 1.2405 ^ 3 < r ^ 3 := pow_lt_pow_left₀ h (by norm_num) (by norm_num)
    norm_num at this r3; linarith
  have s4 : L.xae = 20000 * r := by
    unfold Link.xae
    have : L.wn * L.gme ^ 2 = (20000 * r)⁻¹ ^ 3 := by
      rw [w1, w8, inv_pow, mul_pow, r3]; norm_num
    rw [this, ← Real.rpow_natCast, ← Real.rpow_mul (by positivity)]
    norm_num [Real.rpow_neg_one]
  have s5 : L.d3 = 240000 + 27574 * r := by
    unfold Link.d3
    rw [s1, s2, s4, max_eq_right]
    · norm_num; ring
    · norm_num; linarith
  have s6 : L.d4 = 240000 + 82722 * r := by
    unfold Link.d4
    rw [s5, s4]; norm_num; ring
  -- the terminals
  obtain ⟨t, et⟩ : ∃ t : ℝ, t = (120000 ^ 2 / (2 * 100) * (8 / 1.908) : ℝ) ^ (1 / 3 : ℝ) := ⟨_, rfl⟩
  have t3 : t ^ 3 = 120000 ^ 2 / (2 * 100) * (8 / 1.908) := by
    rw [et, ← Real.rpow_natCast, ← Real.rpow_mul (by norm_num)]; norm_num
  have t0 : 0 < t := by rw [et]; positivity
  have t1 : 665 ≤ t := by
    by_contra h; push Not at h
    have : t ^ 3 < 665 ^ 3 := pow_lt_pow_left₀ h t0.le (by norm_num)
    norm_num at this t3; linarith
  have t2 : t ≤ 675 := by
    by_contra h; push Not at h
    have : 675 ^ 3 < t ^ 3 := pow_lt_pow_left₀ h (by norm_num) (by norm_num)
    norm_num at this t3; linarith
  obtain ⟨X, eX⟩ : ∃ X : ℝ, X = terminalArg (8 / 1.908) 0.25 120000 100 := ⟨_, rfl⟩
  have hX : X = (1.607 * t - 0.25) * 151 / 600 := by
    rw [eX]
    unfold terminalArg roundedArg
    rw [show (120000 / (2 * 100 / 120000) * (8 / 1.908) : ℝ) = 120000 ^ 2 / (2 * 100) * (8 / 1.908) by norm_num, ← et]
    field_simp
    norm_num
    ring
  have X1 : 266 ≤ X := by rw [hX, le_div_iff₀ (by norm_num)]; norm_num; linarith
  have X2 : X ≤ 275 := by rw [hX, div_le_iff₀ (by norm_num)]; norm_num; linarith
  have s7 : L.xht = 2 * X := by
    unfold Link.xht
    rw [w1, w2, w3, w4, w5, z1, ← eX]; ring
  obtain ⟨lo2, hi2⟩ := log2_bounds
  have G : ∀ k, -23 ≤ heightGain X k := by
    intro k
    unfold heightGain
    rw [if_neg (by linarith), if_pos (by linarith)]
    obtain ⟨v0, v1⟩ := fht_weight (x := X) (by linarith)
    dsimp only
    generalize 0.0134 * X * Real.exp (-0.005 * X) = v at *
    have l1 := log_ge_pow2 (y := X) 8 (by linarith)
    have l2 := log_le_pow2 (y := X) 8 (by linarith)
    have l3 : 2 ^ 8 / X ≤ 1 := by rw [div_le_one (by linarith)]; norm_num; linarith
    have n1 : -23 ≤ nearGain X := by unfold nearGain; norm_num at *; linarith
    have f1 : -23 ≤ farGain X := by unfold farGain; norm_num at *; linarith
    norm_num at v1
    nlinarith
  have s8 : -26 ≤ L.aht := by
    unfold Link.aht
    rw [w1, w2, w3, w4, w5, z1, ← eX]
    linarith [G (terminalK (8 / 1.908) 0.25 120000 100)]
  -- the diffraction attenuations
  have D : ∀ c, 0 < c → L.diffraction (240000 + c * r) =
      0.05751 * ((1.607 - 0.25 / (400 / r)) * 151 * 400 * 1.25e-7 * c + 2 * X) -
        4.343 * Real.log ((1.607 - 0.25 / (400 / r)) * 151 * 400 * 1.25e-7 * c + 2 * X) - L.aht := by
    intro c hc
    have hw : diffWeight L.wn L.dh L.wd1 L.xd1 (240000 + c * r) = 1 := by
      unfold diffWeight irregularity
      rw [w9]; norm_num
    have hcl : clutter L.wn L.dh L.hg₀ L.hg₁ L.dlsa = 0 := by
      unfold clutter terrainSigma irregularity
      rw [w9]; norm_num
    have ha : roundedArg L.wn (240000 + c * r - L.dla) (L.tha + (240000 + c * r) * L.gme) L.zInv L.xht =
        (1.607 - 0.25 / (400 / r)) * 151 * 400 * 1.25e-7 * c + 2 * X := by
      unfold roundedArg
      rw [s2, s3, w8, w1, z1, s7]
      have e1 : (-0.03 + (240000 + c * r) * 1.25e-7 : ℝ) = 1.25e-7 * (c * r) := by norm_num; ring
      have e2 : (240000 + c * r - 240000 : ℝ) = c * r := by ring
      rw [e1, e2, rpow_third_eq (w := 400 / r) (by positivity)]
      · field_simp
      · rw [div_pow, r3]; field_simp; norm_num
    unfold Link.diffraction
    dsimp only
    rw [hw, hcl]
    unfold roundedEarth
    rw [ha]; ring
  have k1 : 0.25 / (400 / r) = 0.000625 * r := by field_simp; norm_num
  have a3 := D 27574 (by norm_num)
  have a4 := D 82722 (by norm_num)
  rw [← s5, k1] at a3
  rw [← s6, k1] at a4
  obtain ⟨A, eA⟩ : ∃ A : ℝ, A = (1.607 - 0.000625 * r) * 151 * 400 * 1.25e-7 * 27574 := ⟨_, rfl⟩
  have eA3 : (1.607 - 0.000625 * r) * 151 * 400 * 1.25e-7 * 82722 = 3 * A := by rw [eA]; ring
  rw [← eA] at a3
  rw [eA3] at a4
  have A1 : 334 ≤ A := by rw [eA]; norm_num at r1 r2 ⊢; linarith
  have A2 : A ≤ 335 := by rw [eA]; norm_num at r1 r2 ⊢; linarith
  have up : L.diffraction L.d3 ≤ 56 := by
    rw [a3]
    have := log_ge_pow2 (y := A + 2 * X) 9 (by linarith)
    have l3 : 2 ^ 9 / (A + 2 * X) ≤ 1 := by rw [div_le_one (by linarith)]; norm_num; linarith
    generalize Real.log (A + 2 * X) = l at *
    norm_num at *; linarith
  have dif : 30 ≤ L.diffraction L.d4 - L.diffraction L.d3 := by
    rw [a3, a4]
    have : Real.log (3 * A + 2 * X) ≤ Real.log (2 * (A + 2 * X)) := Real.log_le_log (by linarith) (by linarith)
    rw [Real.log_mul (by norm_num) (by linarith)] at this
    generalize Real.log (A + 2 * X) = l at *
    generalize Real.log (3 * A + 2 * X) = l' at *
    norm_num at *; linarith
  have m0 : 0 < L.md := by
    unfold Link.md
    refine div_pos (by linarith) ?_
    rw [s5, s6]; linarith
  have m1 : L.md * (2 * (27574 * r)) = L.diffraction L.d4 - L.diffraction L.d3 := by
    unfold Link.md
    rw [show L.d4 - L.d3 = 2 * (27574 * r) by rw [s5, s6]; ring]
    field_simp
  have m2 : L.md * (4 * 27574 * r) ≤ L.md * (160000 + 27574 * r) := mul_le_mul_of_nonneg_left (by norm_num at r2 ⊢; linarith) m0.le
  have hl : L.diffLine 0 = L.diffraction L.d3 - L.md * (160000 + 27574 * r) - 80000 * L.md := by
    unfold Link.diffLine; rw [s5]; ring
  have m3 : L.md * (4 * 27574 * r) = 2 * (L.md * (2 * (27574 * r))) := by ring
  have hz : L.diffLine 0 + 80000 * L.md < 0 := by rw [hl]; linarith
  have aed : L.diffLine 0 < 0 := by linarith
  refine ⟨s1, ?_⟩
  unfold Link.FitClash fitDistances
  rw [if_neg (not_le.2 aed)]
  have near : 1.908 * L.wn * L.he₀ * L.he₁ = 80000 := by rw [w1, w2, w3]; norm_num
  dsimp only
  rw [near, s1]
  refine .inr (.inr ⟨lt_max_of_lt_left ?_, rfl⟩)
  rw [lt_div_iff₀ m0]
  linarith

theorem clash_limits (mdp : Int) : WithinLimits (clash mdp) := by
  have hs : smoothHorizon 100 1.25e-7 = 40000 := by
    unfold smoothHorizon
    rw [show (2 * 100 / 1.25e-7 : ℝ) = 40000 ^ 2 by norm_num]; exact Real.sqrt_sq (by norm_num)
  have t : TerminalUsable 100 100 120000 (-0.015) 1.25e-7 := by
    refine ⟨by norm_num, ?_, ?_, ?_⟩
    · rw [abs_of_neg] <;> norm_num
    · rw [hs]; norm_num
    · rw [hs]; norm_num
  refine ⟨?_, ?_, ?_, ?_, t, t, ?_, ?_, ?_, ?_, ?_⟩
  · show (0.419 : ℝ) ≤ 8 / 1.908 ∧ (8 / 1.908 : ℝ) ≤ 420; norm_num
  · show (250 : ℝ) ≤ 301 ∧ (301 : ℝ) ≤ 400; norm_num
  · show (75e-9 : ℝ) ≤ 1.25e-7 ∧ (1.25e-7 : ℝ) ≤ 250e-9; norm_num
  · show |(0 : ℝ)| ≤ 4; norm_num
  · show (0 : ℝ) < 100 ∧ (100 : ℝ) ≤ 20000; norm_num
  · show (0 : ℝ) < 100 ∧ (100 : ℝ) ≤ 20000; norm_num
  · show (0 : ℝ) ≤ 0; exact le_rfl
  · right; show (1 : ℝ) ≤ 4; norm_num
  · left; show 0.025 ≤ √((4 : ℝ) ^ 2 + 0 ^ 2)
    rw [show (4 : ℝ) ^ 2 + 0 ^ 2 = 4 ^ 2 by norm_num, Real.sqrt_sq (by norm_num)]; norm_num

/-- **C65** (the coincidence occurs) A link within the limits for which every first call at a line-of-sight distance divides by zero. -/
theorem C65_coincidence : ∃ p : PropSt ℝ, WithinLimits p ∧ p.mdp ≠ 0 ∧ 0 < (linkOf p).dlsa ∧
    ∀ d, 0 < distOf p d → distOf p d < (linkOf p).dlsa → lrprop d p = .error .zeroDivision := by
  obtain ⟨h1, h2⟩ := clash_fit 1
  refine ⟨clash 1, clash_limits 1, by decide, by rw [h1]; norm_num, fun d d0 d1 => ?_⟩
  exact (C65_sight (by decide) (clash_limits 1) d0 d1).2 h2

end Itm.Props
