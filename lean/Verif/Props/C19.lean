import Verif.Lemmas.Fresh
import Verif.Spec.Fit

/-! C19: continuity in the distance. C24: growth with distance. C25: the line-of-sight fit. -/

namespace Itm
open Spec

theorem losDR_spec (i : LrIn ℝ) (h : Horizon ℝ) (l : DiffLine ℝ) :
    losDR i h l = fitDistances i.wn i.he.x0 i.he.x1 h.dla l.aed l.emd := by
  unfold losDR fitDistances
  have e1 : (0.5 : ℝ) * h.dla = h.dla / 2 := by ring
  have e2 : ∀ x : ℝ, (0.25 : ℝ) * x = x / 4 := by intro x; ring
  simp only [e1, e2]

/-- Beyond the horizon, as a single continuous expression. -/
noncomputable def farR (l : DiffLine ℝ) (c : ScatC ℝ) (D : ℝ) : ℝ := l.aed + l.emd * D + (c.ems - l.emd) * max (D - c.dx) 0

theorem farAref_eq {l : DiffLine ℝ} {c : ScatC ℝ} (h : c.aes + c.ems * c.dx = l.aed + l.emd * c.dx) (D : ℝ) :
    farAref l c D = farR l c D := by
  unfold farAref farR
  split_ifs with hx
  · rw [max_eq_left (by linarith)]; linear_combination h
  · rw [max_eq_right (by linarith [not_lt.1 hx])]; ring

theorem farR_mono {l : DiffLine ℝ} {c : ScatC ℝ} (h0 : 0 ≤ l.emd) (h1 : 0 ≤ c.ems) : Monotone (farR l c) := by
  intro x y hxy
  unfold farR
  rcases le_total x c.dx with hx | hx <;> rcases le_total y c.dx with hy | hy
  · rw [max_eq_right (by linarith), max_eq_right (by linarith)]; nlinarith
  · rw [max_eq_right (by linarith), max_eq_left (by linarith)]; nlinarith
  · rw [max_eq_left (by linarith), max_eq_right (by linarith)]; nlinarith
  · rw [max_eq_left (by linarith), max_eq_left (by linarith)]; nlinarith

theorem scatC_dx {i : LrIn ℝ} {h : Horizon ℝ} {l : DiffLine ℝ} {a1 : ℝ} {r : ℝ × ScatPrep ℝ × ScatC ℝ}
    (hr : scatC i h l a1 = .ok r) : h.dlsa ≤ r.2.2.dx ∨ r.2.2.ems = l.emd := by
  unfold scatC at hr
  dsimp only at hr
  obtain ⟨s, _, hr⟩ := bind_eq_ok.1 hr
  obtain ⟨x, _, hr⟩ := bind_eq_ok.1 hr
  obtain ⟨y, _, hr⟩ := bind_eq_ok.1 hr
  obtain ⟨c, hc, hr⟩ := bind_eq_ok.1 hr
  rw [pure_ok, ok_inj] at hr
  subst hr
  unfold scatCoef at hc
  dsimp only at hc
  split_ifs at hc
  · obtain ⟨lg, _, hc⟩ := bind_eq_ok.1 hc
    obtain ⟨x, _, hc⟩ := bind_eq_ok.1 hc
    rw [pure_ok, ok_inj] at hc
    rw [← hc]
    simp only [pyMax_real]
    exact .inl (le_trans (le_max_left _ _) (le_max_left _ _))
  · rw [pure_ok, ok_inj] at hc
    rw [← hc]; exact .inr rfl

theorem farR_dlsa {i : LrIn ℝ} {h : Horizon ℝ} {l : DiffLine ℝ} {a1 : ℝ} {r : ℝ × ScatPrep ℝ × ScatC ℝ}
    (hr : scatC i h l a1 = .ok r) : farR l r.2.2 h.dlsa = l.aed + l.emd * h.dlsa := by
  unfold farR
  rcases scatC_dx hr with e | e
  · rw [max_eq_right (by linarith)]; ring
  · rw [e]; ring

/-- The answer of a fresh preparation. -/
theorem fresh_near {p q : PropSt ℝ} {D : ℝ} (hm : 0 < p.mdp) (h : lrprop D p = .ok q) (h0 : 0 < D) :
    ∃ s, setupC p.mdp (inp p) = .ok s ∧ q.hor = some s.h ∧ q.line = some s.l ∧
      (D < s.h.dlsa → ∃ k, losC (inp p) s.h s.l = .ok k ∧ q.los = some k ∧ q.wlos = true ∧ q.aref = some (max (k.ael + k.ak1 * D + k.ak2 * Real.log D) 0)) ∧
      (s.h.dlsa ≤ D → ∃ x, scatC (inp p) s.h s.l 0.0 = .ok x ∧ q.scat = some x.2.2 ∧ q.wscat = true ∧ q.aref = some (max (farAref s.l x.2.2 D) 0)) := by
  obtain ⟨s, hs, I, w1, w2⟩ := first_inv hm h
  have e := arefOf_setup hm hs D
  rw [h] at e
  refine ⟨s, hs, I.hor, I.line, fun c => ?_, fun c => ?_⟩
  · obtain ⟨k, hk, hk'⟩ := I.cache.los (w1 c)
    rw [runC_near c h0 rfl, hk] at e
    exact ⟨k, hk, hk', w1 c, Except.ok.inj e⟩
  · obtain ⟨x, hx, hx', _⟩ := I.cache.scat (w2 (.inr c))
    rw [runC_far (freshCInv _ _ _ _) c, hx] at e
    exact ⟨x, hx, hx', w2 (.inr c), Except.ok.inj e⟩

end Itm

namespace Itm.Props
open Itm Itm.Spec

/-- **C19** In every state of an area sweep the line-of-sight curve meets the diffraction line at `dlsa`, once the
line-of-sight coefficients exist, and the scatter line meets the diffraction line at `dx`, once the scatter
coefficients exist. -/
theorem C19_formulas_meet {p q : PropSt ℝ} {ds : List ℝ} (hm : 0 < p.mdp) (hn : ds ≠ []) (h : sweep ds p = .ok q) :
    ∃ hz l, q.hor = some hz ∧ q.line = some l ∧
      (q.wlos = true → ∃ k, q.los = some k ∧ fitCurve k.ael k.ak1 k.ak2 hz.dlsa = l.aed + l.emd * hz.dlsa) ∧
      (q.wscat = true → ∃ c, q.scat = some c ∧ c.aes + c.ems * c.dx = l.aed + l.emd * c.dx) := by
  obtain ⟨s, hs, I, _⟩ := sweep_inv hm hn h
  refine ⟨s.h, s.l, I.hor, I.line, fun w => ?_, fun w => ?_⟩
  · obtain ⟨k, hk, e⟩ := I.cache.los w
    exact ⟨k, e, (losC_meets hk).2⟩
  · obtain ⟨x, hx, e, _⟩ := I.cache.scat w
    exact ⟨x.2.2, e, scatC_meets hx⟩

/-- **C19** The reference attenuation of one preparation is a continuous function of the distance on `(0, ∞)`. -/
theorem C19_continuous {p : PropSt ℝ} (hm : 0 < p.mdp) (hall : ∀ D, 0 < D → ∃ q, lrprop D p = .ok q) :
    ∃ A : ℝ → ℝ, ContinuousOn A (Set.Ioi 0) ∧ ∀ D, 0 < D → arefOf (lrprop D p) = .ok (some (A D)) := by
  obtain ⟨q1, h1⟩ := hall 1 one_pos
  obtain ⟨s, hs, _⟩ := fresh_near hm h1 one_pos
  have same : ∀ {D q}, 0 < D → lrprop D p = .ok q →
      (D < s.h.dlsa → ∃ k, losC (inp p) s.h s.l = .ok k ∧ q.aref = some (max (k.ael + k.ak1 * D + k.ak2 * Real.log D) 0)) ∧
      (s.h.dlsa ≤ D → ∃ x, scatC (inp p) s.h s.l 0.0 = .ok x ∧ q.aref = some (max (farAref s.l x.2.2 D) 0)) := by
    intro D q h0 hq
    obtain ⟨s', hs', _, _, a, b⟩ := fresh_near hm hq h0
    rw [hs, ok_inj] at hs'
    subst hs'
    refine ⟨fun c => ?_, fun c => ?_⟩
    · obtain ⟨k, hk, _, _, e⟩ := a c; exact ⟨k, hk, e⟩
    · obtain ⟨k, hk, _, _, e⟩ := b c; exact ⟨k, hk, e⟩
  have hM : 0 < max s.h.dlsa 1 := lt_of_lt_of_le one_pos (le_max_right _ _)
  obtain ⟨qM, hqM⟩ := hall _ hM
  obtain ⟨x, hx, _⟩ := (same hM hqM).2 (le_max_left _ _)
  have hmx := scatC_meets hx
  have far : ∀ D, 0 < D → s.h.dlsa ≤ D → arefOf (lrprop D p) = .ok (some (max (farR s.l x.2.2 D) 0)) := by
    intro D h0 hD
    obtain ⟨q, hq⟩ := hall D h0
    obtain ⟨x', hx', e⟩ := (same h0 hq).2 hD
    rw [hx, ok_inj] at hx'
    subst hx'
    rw [farAref_eq hmx] at e
    rw [hq]; exact congrArg Except.ok e
  have cf : Continuous (farR s.l x.2.2) := by unfold farR; fun_prop
  by_cases hd : 0 < s.h.dlsa
  · obtain ⟨qh, hqh⟩ := hall _ (half_pos hd)
    obtain ⟨k, hk, _⟩ := (same (half_pos hd) hqh).1 (half_lt_self hd)
    obtain ⟨_, hmk⟩ := losC_meets hk
    have near : ∀ D, 0 < D → D < s.h.dlsa → arefOf (lrprop D p) = .ok (some (max (fitCurve k.ael k.ak1 k.ak2 D) 0)) := by
      intro D h0 hD
      obtain ⟨q, hq⟩ := hall D h0
      obtain ⟨k', hk', e⟩ := (same h0 hq).1 hD
      rw [hk, ok_inj] at hk'
      subst hk'
      rw [hq]; exact congrArg Except.ok e
    have ck : ContinuousOn (fitCurve k.ael k.ak1 k.ak2) (Set.Ioi 0) := by
      unfold fitCurve
      exact (by fun_prop : Continuous fun d : ℝ => k.ael + k.ak1 * d).continuousOn.add
        (continuousOn_const.mul (Real.continuousOn_log.mono (fun d hd => ne_of_gt hd)))
    refine ⟨fun D => max (fitCurve k.ael k.ak1 k.ak2 (min D s.h.dlsa) + farR s.l x.2.2 (max D s.h.dlsa) - farR s.l x.2.2 s.h.dlsa) 0, ?_, ?_⟩
    · have c1 : ContinuousOn (fun D => fitCurve k.ael k.ak1 k.ak2 (min D s.h.dlsa)) (Set.Ioi 0) :=
        ck.comp (by fun_prop) (fun D hD => lt_min hD hd)
      have c2 : ContinuousOn (fun D => farR s.l x.2.2 (max D s.h.dlsa)) (Set.Ioi 0) :=
        (cf.comp (by fun_prop)).continuousOn
      exact ((c1.add c2).sub continuousOn_const).sup continuousOn_const
    · intro D h0
      by_cases c : D < s.h.dlsa
      · simp only
        rw [near D h0 c, min_eq_left c.le, max_eq_right c.le, add_sub_cancel_right]
      · rw [not_lt] at c
        simp only
        rw [far D h0 c, min_eq_right c, max_eq_left c]
        have e : fitCurve k.ael k.ak1 k.ak2 s.h.dlsa = farR s.l x.2.2 s.h.dlsa := by
          rw [farR_dlsa hx]; exact hmk
        rw [e, add_sub_cancel_left]
  · refine ⟨fun D => max (farR s.l x.2.2 D) 0, (cf.sup continuous_const).continuousOn, fun D h0 => far D h0 (by linarith)⟩

/-- The smooth link answers every distance, so its answer is continuous. -/
example : ∃ A : ℝ → ℝ, ContinuousOn A (Set.Ioi 0) ∧ ∀ D, 0 < D → arefOf (lrprop D smooth) = .ok (some (A D)) :=
  C19_continuous (by decide) smooth_total

/-! ### C24 -/

/-- **C24** If the diffraction and scatter slopes are nonnegative and the inner distances of the line-of-sight fit are
positive and below the horizon, the reference attenuation never decreases with distance, in and across all regions. -/
theorem C24_monotone {p q₁ q₂ : PropSt ℝ} {h : Horizon ℝ} {l : DiffLine ℝ} {D₁ D₂ a₁ a₂ : ℝ} (hm : 0 < p.mdp)
    (h1 : lrprop D₁ p = .ok q₁) (h2 : lrprop D₂ p = .ok q₂) (ha1 : q₁.aref = some a₁) (ha2 : q₂.aref = some a₂)
    (hh : q₁.hor = some h) (hl : q₁.line = some l) (hemd : 0 ≤ l.emd)
    (hems : ∀ c, q₂.wscat = true → q₂.scat = some c → 0 ≤ c.ems)
    (hd0 : 0 < (fitDistances p.wn p.he.x0 p.he.x1 h.dla l.aed l.emd).1)
    (hd1 : (fitDistances p.wn p.he.x0 p.he.x1 h.dla l.aed l.emd).2 < h.dlsa)
    (h0 : 0 < D₁) (hD : D₁ ≤ D₂) : a₁ ≤ a₂ := by
  obtain ⟨s, hs, i1, i2, n1, f1⟩ := fresh_near hm h1 h0
  obtain ⟨s', hs', _, _, n2, f2⟩ := fresh_near hm h2 (h0.trans_le hD)
  rw [hs, ok_inj] at hs'
  subst hs'
  rw [i1] at hh
  rw [i2] at hl
  obtain rfl := Option.some.inj hh
  obtain rfl := Option.some.inj hl
  have curve : ∀ {k}, losC (inp p) s.h s.l = .ok k → ∀ {x y : ℝ}, 0 < x → x ≤ y →
      fitCurve k.ael k.ak1 k.ak2 x ≤ fitCurve k.ael k.ak1 k.ak2 y := by
    intro k hk x y hx hxy
    obtain ⟨s1, s2⟩ := losC_signs (by rw [losDR_spec]; exact hd0) (by rw [losDR_spec]; exact hd1) hk
    have s1' : 0 ≤ k.ak1 := s1.elim id (fun e => by rw [e]; exact hemd)
    unfold fitCurve
    have hlog : Real.log x ≤ Real.log y := Real.log_le_log hx hxy
    nlinarith [mul_le_mul_of_nonneg_left hxy s1', mul_le_mul_of_nonneg_left hlog s2]
  by_cases c1 : D₁ < s.h.dlsa
  · obtain ⟨k, hk, _, _, e1⟩ := n1 c1
    rw [ha1] at e1
    rw [Option.some.inj e1]
    by_cases c2 : D₂ < s.h.dlsa
    · obtain ⟨k', hk', _, _, e2⟩ := n2 c2
      rw [hk, ok_inj] at hk'
      subst hk'
      rw [ha2] at e2
      rw [Option.some.inj e2]
      exact max_le_max (curve hk h0 hD) le_rfl
    · rw [not_lt] at c2
      obtain ⟨x, hx, hx2, hx3, e2⟩ := f2 c2
      rw [ha2] at e2
      rw [Option.some.inj e2, farAref_eq (scatC_meets hx)]
      refine max_le_max ?_ le_rfl
      calc k.ael + k.ak1 * D₁ + k.ak2 * Real.log D₁ ≤ fitCurve k.ael k.ak1 k.ak2 s.h.dlsa := curve hk h0 c1.le
        _ = s.l.aed + s.l.emd * s.h.dlsa := (losC_meets hk).2
        _ = farR s.l x.2.2 s.h.dlsa := (farR_dlsa hx).symm
        _ ≤ farR s.l x.2.2 D₂ := farR_mono hemd (hems _ hx3 hx2) c2
  · rw [not_lt] at c1
    obtain ⟨x, hx, _, _, e1⟩ := f1 c1
    obtain ⟨x', hx', hx2, hx3, e2⟩ := f2 (c1.trans hD)
    rw [hx, ok_inj] at hx'
    subst hx'
    rw [ha1] at e1
    rw [ha2] at e2
    rw [Option.some.inj e1, Option.some.inj e2, farAref_eq (scatC_meets hx), farAref_eq (scatC_meets hx)]
    exact max_le_max (farR_mono hemd (hems _ hx3 hx2) hD) le_rfl

/-- When the middle distance of the fit is below the horizon: the diffraction line is positive there and the horizon
distances are not much longer than the smooth-earth ones. -/
theorem C24_fit_below_horizon {k h₀ h₁ dla dlsa aed emd : ℝ} (hdla : 0.625 * dla < dlsa) (hdla0 : 0 ≤ dla) (hemd : 0 < emd)
    (hpos : 0 < aed + emd * dlsa) : (fitDistances k h₀ h₁ dla aed emd).2 < dlsa := by
  unfold fitDistances
  simp only
  split_ifs with h
  · have := min_le_right (1.908 * k * h₀ * h₁) (dla / 2)
    simp only
    generalize min (1.908 * k * h₀ * h₁) (dla / 2) = m at *
    norm_num at hdla
    linarith
  · refine max_lt ?_ (by norm_num at hdla; linarith)
    rw [div_lt_iff₀ hemd]; linarith

/-- The smooth link meets all hypotheses: its attenuation grows with distance everywhere. -/
example (D₁ D₂ : ℝ) (h0 : 0 < D₁) (hD : D₁ ≤ D₂) : ∃ a₁ a₂, arefOf (lrprop D₁ smooth) = .ok (some a₁) ∧
    arefOf (lrprop D₂ smooth) = .ok (some a₂) ∧ a₁ ≤ a₂ := by
  have hm : 0 < smooth.mdp := by decide
  obtain ⟨s, k, x, hs, hh, hsa, hk, hx, he, _, _, _, _, h12, hxe⟩ := smooth_all
  obtain ⟨q₁, h1⟩ := smooth_total D₁ h0
  obtain ⟨q₂, h2⟩ := smooth_total D₂ (h0.trans_le hD)
  obtain ⟨s1, hs1, i1, i2, _⟩ := fresh_near hm h1 h0
  obtain ⟨s2, hs2, I2, _⟩ := first_inv hm h2
  have es : s1 = s := by rw [show setupC smooth.mdp (inp smooth) = setupC 1 smoothIn from rfl, hs, ok_inj] at hs1; exact hs1.symm
  have es2 : s2 = s := by rw [show setupC smooth.mdp (inp smooth) = setupC 1 smoothIn from rfl, hs, ok_inj] at hs2; exact hs2.symm
  subst es
  subst es2
  obtain ⟨a₁, ha1⟩ : ∃ a, q₁.aref = some a := by
    obtain ⟨s', _, _, _, n, f⟩ := fresh_near hm h1 h0
    rcases lt_or_ge D₁ s'.h.dlsa with c | c
    · obtain ⟨_, _, _, _, e⟩ := n c; exact ⟨_, e⟩
    · obtain ⟨_, _, _, _, e⟩ := f c; exact ⟨_, e⟩
  obtain ⟨a₂, ha2⟩ : ∃ a, q₂.aref = some a := by
    obtain ⟨s', _, _, _, n, f⟩ := fresh_near hm h2 (h0.trans_le hD)
    rcases lt_or_ge D₂ s'.h.dlsa with c | c
    · obtain ⟨_, _, _, _, e⟩ := n c; exact ⟨_, e⟩
    · obtain ⟨_, _, _, _, e⟩ := f c; exact ⟨_, e⟩
  refine ⟨a₁, a₂, by rw [h1]; exact congrArg Except.ok ha1, by rw [h2]; exact congrArg Except.ok ha2, ?_⟩
  refine C24_monotone hm h1 h2 ha1 ha2 i1 i2 (by norm_num at he; linarith) ?_ ?_ ?_ h0 hD
  · intro c hw hc
    obtain ⟨x', hx', e, _⟩ := I2.cache.scat hw
    have e1 : q₂.scat = some x'.2.2 := e
    rw [show inp smooth = smoothIn from rfl, hx, ok_inj] at hx'
    rw [e1, ← hx'] at hc
    rw [← Option.some.inj hc]; exact hxe
  · have := (losD_pos (l := s2.l) (tangent_adm (x := 80000) (by norm_num))).1
    rw [losDR_spec] at this
    rw [hh]; exact this
  · rw [losDR_spec] at h12; exact h12

/-! ### C25 -/

/-- **C25** For `0 < d0 < d1 < d2` the divisor of the logarithmic coefficient is positive. -/
theorem C25_divisor_pos {d0 d1 d2 : ℝ} (h0 : 0 < d0) (h1 : d0 < d1) (h2 : d1 < d2) :
    0 < (d2 - d0) * Real.log (d1 / d0) - (d1 - d0) * Real.log (d2 / d0) := fit_div_pos h0 h1 h2

/-- **C25** The signs of the produced coefficients. -/
theorem C25_signs {p q : PropSt ℝ} {h : Horizon ℝ} {l : DiffLine ℝ} {ds : List ℝ} (hm : 0 < p.mdp) (hn : ds ≠ [])
    (hq : sweep ds p = .ok q) (hw : q.wlos = true) (hh : q.hor = some h) (hl : q.line = some l)
    (hd0 : 0 < (fitDistances p.wn p.he.x0 p.he.x1 h.dla l.aed l.emd).1)
    (hd1 : (fitDistances p.wn p.he.x0 p.he.x1 h.dla l.aed l.emd).2 < h.dlsa) :
    ∃ k, q.los = some k ∧ 0 ≤ k.ak2 ∧ (0 ≤ k.ak1 ∨ k.ak1 = l.emd) := by
  obtain ⟨s, hs, I, _⟩ := sweep_inv hm hn hq
  rw [I.hor] at hh
  rw [I.line] at hl
  obtain rfl := Option.some.inj hh
  obtain rfl := Option.some.inj hl
  obtain ⟨k, hk, e⟩ := I.cache.los hw
  obtain ⟨s1, s2⟩ := losC_signs (by rw [losDR_spec]; exact hd0) (by rw [losDR_spec]; exact hd1) hk
  exact ⟨k, e, s2, s1⟩

/-- **C25** The fit is produced (nothing raises) for admissible parameters whose inner distances differ from the
horizon distance. -/
theorem C25_fit_exists {i : LrIn ℝ} {l : DiffLine ℝ} (a : Adm i) (hz : ZSafe i.zgnd) (he : 0 ≤ l.aed ∨ l.emd ≠ 0)
    (hd1 : (fitDistances i.wn i.he.x0 i.he.x1 (horR i).dla l.aed l.emd).2 < (horR i).dlsa) :
    ∃ k, losC i (horR i) l = .ok k := by
  rw [← losDR_spec] at hd1
  exact losC_ok a hz he hd1.ne' (fun h => (h.trans hd1).ne')

/-- **C25** When no sign repair is needed the fitted curve passes through all three points. -/
theorem C25_interpolates {d0 d1 d2 a0 a1 a2 k2 emd : ℝ} {x : ℝ × ℝ} (h0 : 0 < d0) (h1 : d0 < d1) (h2 : d1 < d2)
    (hk : losAk2 d0 d1 d2 a0 a1 a2 (Real.log (d2 / d0)) = .ok k2) (hpos : 0 < k2)
    (hx : losAk1 d0 d2 a0 a2 (Real.log (d2 / d0)) k2 emd = .ok x) (hx1 : 0 < x.1) (hne : x.1 ≠ emd) :
    let e := a2 - x.1 * d2 - x.2 * Real.log d2
    fitCurve e x.1 x.2 d0 = a0 ∧ fitCurve e x.1 x.2 d1 = a1 ∧ fitCurve e x.1 x.2 d2 = a2 := by
  have hd1 : 0 < d1 := h0.trans h1
  have hd2 : 0 < d2 := hd1.trans h2
  have hdiv := fit_div_pos h0 h1 h2
  unfold losAk2 at hk
  obtain ⟨r, hr, hk⟩ := bind_eq_ok.1 hk
  obtain ⟨l1, hl1, hk⟩ := bind_eq_ok.1 hk
  obtain ⟨f, hf, hk⟩ := bind_eq_ok.1 hk
  rw [pure_ok, ok_inj, pyMax_real, zero_lit] at hk
  have ef : f = k2 := by
    rcases max_cases (0 : ℝ) f with ⟨e, _⟩ | ⟨e, _⟩
    · rw [e] at hk; linarith
    · rw [e] at hk; exact hk
  obtain ⟨_, e1⟩ := npLog_eq_ok.1 hl1
  obtain ⟨_, e0⟩ := pyDiv_eq_ok.1 hr
  obtain ⟨_, e2⟩ := pyDiv_eq_ok.1 hf
  rw [e0] at e1
  rw [e1, ef] at e2
  have hk2 : k2 * ((d2 - d0) * Real.log (d1 / d0) - (d1 - d0) * Real.log (d2 / d0)) = (d2 - d0) * (a1 - a0) - (d1 - d0) * (a2 - a0) := by
    rw [e2]; exact div_mul_cancel₀ _ hdiv.ne'
  unfold losAk1 at hx
  obtain ⟨b, hb, hx⟩ := bind_eq_ok.1 hx
  obtain ⟨_, eb⟩ := pyDiv_eq_ok.1 hb
  have eb' : b * (d2 - d0) = a2 - a0 - k2 * Real.log (d2 / d0) := by
    rw [eb]; exact div_mul_cancel₀ _ (by linarith : d2 - d0 ≠ 0)
  have ex : x = (b, k2) := by
    by_cases hn : b < (0.0 : ℝ)
    · exfalso
      rw [if_pos hn] at hx
      obtain ⟨y, _, hx⟩ := bind_eq_ok.1 hx
      split_ifs at hx
      · rw [pure_ok, ok_inj] at hx; rw [← hx] at hne; exact hne rfl
      · rw [pure_ok, ok_inj] at hx; rw [← hx] at hx1; simp only [zero_lit] at hx1; exact lt_irrefl _ hx1
    · rw [if_neg hn, pure_ok, ok_inj] at hx; exact hx.symm
  rw [ex]
  simp only [fitCurve]
  rw [Real.log_div hd1.ne' h0.ne', Real.log_div hd2.ne' h0.ne'] at hk2
  rw [Real.log_div hd2.ne' h0.ne'] at eb'
  refine ⟨by linear_combination -eb', ?_, by ring⟩
  have hne' : d2 - d0 ≠ 0 := by linarith
  have : (a2 - b * d2 - k2 * Real.log d2 + b * d1 + k2 * Real.log d1 - a1) * (d2 - d0) = 0 := by
    linear_combination hk2 + (d1 - d2) * eb'
  have := (mul_eq_zero.1 this).resolve_right hne'
  linarith

/-- The hypotheses are met: sampling `d + log d` at three distances gives the coefficients back. -/
example : losAk2 1 2 4 1 (2 + Real.log 2) (4 + Real.log 4) (Real.log (4 / 1)) = .ok 1 ∧
    losAk1 1 4 1 (4 + Real.log 4) (Real.log (4 / 1)) 1 7 = .ok (1, 1) := by
  have l4 : Real.log 4 = 2 * Real.log 2 := by
    rw [show (4 : ℝ) = 2 ^ 2 by norm_num, Real.log_pow]; norm_num
  have l2 : 0 < Real.log 2 := Real.log_pos (by norm_num)
  refine ⟨?_, ?_⟩
  · unfold losAk2
    rw [pyDiv_ok one_ne_zero, ok_bind, npLog_ok (by norm_num), ok_bind, div_one, div_one, l4,
      pyDiv_ok (by intro h; linarith), ok_bind, pure_ok, pyMax_real, zero_lit]
    rw [show ((4 - 1) * (2 + Real.log 2 - 1) - (2 - 1) * (4 + 2 * Real.log 2 - 1)) / ((4 - 1) * Real.log 2 - (2 - 1) * (2 * Real.log 2)) = (1 : ℝ) by
      rw [div_eq_one_iff_eq (by intro h; linarith)]; ring]
    norm_num
  · unfold losAk1
    rw [pyDiv_ok (by norm_num), ok_bind, div_one]
    rw [show (4 + Real.log 4 - 1 - 1 * Real.log 4) / (4 - 1) = (1 : ℝ) by ring_nf]
    rw [if_neg (by norm_num), pure_ok]

/-- The smooth link's fit exists, and its coefficients have the proved signs. -/
example : ∃ q k, sweep [50000] smooth = .ok q ∧ q.los = some k ∧ 0 ≤ k.ak2 := by
  obtain ⟨s, k, x, hs, hh, hsa, hk, hx, he, _, _, _, _, h12, hxe⟩ := smooth_all
  obtain ⟨q, h⟩ := smooth_total 50000 (by norm_num)
  have e : sweep [50000] smooth = .ok q := by simp only [sweep, h, ok_bind, pure_ok]
  obtain ⟨s1, hs1, I, w, _⟩ := sweep_inv (p := smooth) (by decide) (by simp) e
  have es : s1 = s := by rw [show setupC smooth.mdp (inp smooth) = setupC 1 smoothIn from rfl, hs, ok_inj] at hs1; exact hs1.symm
  subst es
  obtain ⟨k, hk, h2, _⟩ := C25_signs (p := smooth) (by decide) (by simp) e (w 50000 (by simp) (by rw [hsa]; norm_num)) I.hor I.line
    (by have := (losD_pos (l := s1.l) (tangent_adm (x := 80000) (by norm_num))).1
        rw [losDR_spec] at this
        rw [hh]; exact this)
    (by rw [losDR_spec] at h12; exact h12)
  exact ⟨q, k, e, hk, h2⟩

end Itm.Props
