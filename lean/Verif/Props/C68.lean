import Verif.Lemmas.QuantileCont
import Verif.Props.C56
import Verif.Props.C59
import Verif.Props.C67

/-! C68: the predicted loss has no jumps. -/

namespace Itm.Props
open Itm Itm.Spec

/-- **C68** (quantile) Along any family of dictionaries that follow the protocol and share climate and mode, `avar` answers a continuous
function wherever distance, irregularity, effective heights, wave number, reference attenuation and deviates are continuous – across the
median, the far-above-median threshold, the change of the effective distance and the softening of negative values. -/
theorem C68_avar {X : Type} [TopologicalSpace X] {S : Set X} {k md m : ℤ} {noLoc noSit : Bool} {P₀ P Q : X → PropSt ℝ}
    {ar zt zl zc a : X → ℝ} (hc : ClimateCode k) (hm : ModeCode md m noLoc noSit)
    (h5 : ∀ x ∈ S, (P₀ x).lvar = 5) (hr : ∀ x ∈ S, Reach (P₀ x) (P x)) (hk : ∀ x ∈ S, (P x).klim = some k)
    (hmd : ∀ x ∈ S, (P x).mdvar = some md) (har : ∀ x ∈ S, (P x).aref = some (ar x))
    (pd : ∀ x ∈ S, 0 ≤ (P x).dist) (ph : ∀ x ∈ S, 0 ≤ (P x).dh) (pw : ∀ x ∈ S, 0 < (P x).wn)
    (cd : ContinuousOn (fun x => (P x).dist) S) (ch : ContinuousOn (fun x => (P x).dh) S)
    (c0 : ContinuousOn (fun x => (P x).he.x0) S) (c1 : ContinuousOn (fun x => (P x).he.x1) S)
    (cw : ContinuousOn (fun x => (P x).wn) S) (ca : ContinuousOn ar S) (ct : ContinuousOn zt S) (cl : ContinuousOn zl S)
    (cc : ContinuousOn zc S) (h : ∀ x ∈ S, avar (zt x) (zl x) (zc x) (P x) = .ok (a x, Q x)) : ContinuousOn a S := by
  have e : ∀ x ∈ S, a x = quantile k m noLoc noSit (P x).dist (P x).dh (P x).he.x0 (P x).he.x1 (P x).wn (ar x) (zt x) (zl x) (zc x) :=
    fun x hx => C56_avar_formula (h5 x hx) (hr x hx) (hk x hx) hc (hmd x hx) hm (har x hx) (h x hx)
  refine ContinuousOn.congr ?_ e
  rw [continuousOn_iff_continuous_domRestrict] at *
  exact quantile_continuous k m noLoc noSit cd ch c0 c1 cw ca ct cl cc (fun x => pd x.1 x.2) (fun x => ph x.1 x.2) fun x => pw x.1 x.2

theorem softR_slopes {x y : ℝ} (h : x ≤ y) : (y - x) / 10 ≤ softR y - softR x ∧ softR y - softR x ≤ y - x := by
  have key : ∀ a : ℝ, a ≤ 0 → softR a = a / 10 + 2.61 * a / (29 - 10 * a) * 10 := by
    intro a ha
    unfold softR
    have : (29 - 10 * a) ≠ 0 := by linarith
    split_ifs with c
    · generalize ht : 29 - 10 * a = t at this ⊢
      obtain rfl : a = (29 - t) / 10 := by linarith
      field_simp; ring
    · have : a = 0 := le_antisymm ha (not_lt.1 c)
      rw [this]; norm_num
  have neg : ∀ {a b : ℝ}, a ≤ b → b ≤ 0 → (b - a) / 10 ≤ softR b - softR a ∧ softR b - softR a ≤ b - a := by
    intro a b hab hb
    rw [key b hb, key a (hab.trans hb)]
    have pa : 29 ≤ 29 - 10 * a := by linarith
    have pb : 29 ≤ 29 - 10 * b := by linarith
    have e : b / 10 + 2.61 * b / (29 - 10 * b) * 10 - (a / 10 + 2.61 * a / (29 - 10 * a) * 10) =
        (b - a) / 10 + (b - a) * (756.9 / ((29 - 10 * b) * (29 - 10 * a))) := by
      have ta : (29 - 10 * a) ≠ 0 := by linarith
      have tb : (29 - 10 * b) ≠ 0 := by linarith
      generalize hu : 29 - 10 * a = u at ta ⊢
      generalize hv : 29 - 10 * b = v at tb ⊢
      obtain rfl : a = (29 - u) / 10 := by linarith
      obtain rfl : b = (29 - v) / 10 := by linarith
      field_simp; norm_num; ring
    rw [e]
    have hp : (29:ℝ) * 29 ≤ (29 - 10 * b) * (29 - 10 * a) := mul_le_mul pb pa (by norm_num) (by linarith)
    have q0 : 0 ≤ 756.9 / ((29 - 10 * b) * (29 - 10 * a)) := by
      apply div_nonneg (by norm_num); linarith
    have q1 : 756.9 / ((29 - 10 * b) * (29 - 10 * a)) ≤ 0.9 := by
      rw [div_le_iff₀ (by linarith)]; norm_num at hp ⊢; linarith
    have hd : 0 ≤ b - a := by linarith
    constructor
    · have := mul_nonneg hd q0; linarith
    · have := mul_le_mul_of_nonneg_left q1 hd; norm_num at this ⊢; linarith
  have pos : ∀ {a : ℝ}, 0 ≤ a → softR a = a := fun ha => by unfold softR; rw [if_neg (not_lt.2 ha)]
  rcases le_total 0 x with hx | hx
  · rw [pos hx, pos (hx.trans h)]; constructor <;> linarith
  · rcases le_total y 0 with hy | hy
    · exact neg h hy
    · have a := neg hx le_rfl
      have z : softR 0 = 0 := pos le_rfl
      rw [z] at a
      rw [pos hy]
      constructor <;> linarith [a.1, a.2]

/-- **C68** (reference attenuation) An error in the reference attenuation is passed on with a factor between a tenth and one. -/
theorem C68_aref {p₀ p q q' : PropSt ℝ} {x x' a a' zt zl zc : ℝ} (h5 : p₀.lvar = 5) (hr : Reach p₀ p)
    (h : avar zt zl zc { p with aref := some x } = .ok (a, q))
    (h' : avar zt zl zc { p with aref := some x' } = .ok (a', q')) (hx : x ≤ x') :
    (x' - x) / 10 ≤ a' - a ∧ a' - a ≤ x' - x := by
  have hi := cacheInv_reach (by omega : 5 ≤ p₀.lvar) hr
  obtain ⟨c, m, g, y, v, ar, k, md, hf, har, _, _, _, _, _, _, _, _, _, _, ha⟩ := avar_real (cacheInv_aref hi _) h
  obtain ⟨c', m', g', y', v', ar', k', md', hf', har', _, _, _, _, _, _, _, _, _, _, ha'⟩ := avar_real (cacheInv_aref hi _) h'
  have hf : freshSetup p = .ok (c, m, g, y, v) := hf
  have hf' : freshSetup p = .ok (c', m', g', y', v') := hf'
  rw [hf, ok_inj] at hf'
  simp only [Prod.mk.injEq] at hf'
  obtain ⟨rfl, rfl, rfl, rfl, rfl⟩ := hf'
  obtain rfl : x = ar := by simpa using har
  obtain rfl : x' = ar' := by simpa using har'
  rw [ha, ha']
  have := softR_slopes (x := x - v.vmd - devR m.kdv c.zd v zt zl zc) (y := x' - v.vmd - devR m.kdv c.zd v zt zl zc) (by linarith)
  constructor <;> linarith [this.1, this.2]

/-- **C68** (area) For one set of inputs there is one continuous function of the distance and the deviates from which every run, whatever
its grid and levels, takes the loss of its first distance and of all distances beyond the horizon. -/
theorem C68_area {kst : Pair Int} {p : PropSt ℝ} {L : Link}
    (hL : L = roughLink p.fmhz p.dh p.hg.x0 p.hg.x1 301 kst.x0 kst.x1 (lossless p.fmhz (decide (p.ipol ≠ 0))))
    (hg0 : 0 < p.hg.x0) (hg1 : 0 < p.hg.x1) (h5 : L.ScatterOk L.d5) (h6 : L.ScatterOk L.d6) :
    ∃ F : ℝ × ℝ × ℝ × ℝ → ℝ, ContinuousOn F {x | 0 < x.1} ∧
      ∀ qt ql qc g rows r, itmlogicAreaAt qt ql qc g kst p = .ok (rows, r) → ∃ zt zl, DeviateOf qt zt ∧ DeviateOf ql zl ∧
        ∀ row ∈ rows, 0 < row.distance_km → (row ∈ rows.take qc.length ∨ L.dlsa ≤ 1000 * row.distance_km) →
          ∃ zc, DeviateOf row.confidence zc ∧ row.loss = F (row.distance_km, zt, zl, zc) := by
  by_cases hex : ∃ qt ql qc g rows r, itmlogicAreaAt qt ql qc g kst p = .ok (rows, r)
  · obtain ⟨qt, ql, qc, g, rows, r, h⟩ := hex
    obtain ⟨hf, hh, -⟩ := C67_area h
    have hw : 0 < L.wn := by rw [hL]; show 0 < p.fmhz / 47.7; positivity
    have hd : L.dh = p.dh := by rw [hL]; rfl
    refine ⟨fun x => L.loss 5 3 false false (1000 * x.1) x.2.1 x.2.2.1 x.2.2.2, ?_, ?_⟩
    · have c := L.loss_continuousOn 5 3 false false hw (by rw [hd]; exact hh)
      refine ContinuousOn.comp (f := fun x : ℝ × ℝ × ℝ × ℝ => (1000 * x.1, x.2)) c (by fun_prop) fun x hx => ?_
      have : (0:ℝ) < x.1 := hx
      show (0:ℝ) < 1000 * x.1
      positivity
    · intro qt ql qc g rows r h
      obtain ⟨zt, zl, ht, hl, H⟩ := C59_area_partial hg0 hg1 hh h hL
      exact ⟨zt, zl, ht, hl, fun row hrow hd hc => H row hrow hd (.inr ⟨h5, h6⟩) hc⟩
  · refine ⟨fun _ => 0, continuousOn_const, fun qt ql qc g rows r h => absurd ⟨qt, ql, qc, g, rows, r, h⟩ hex⟩

/-- The loss of the demonstration link as a function of its distance, through both forms of the effective distance. -/
example : ∃ (a : ℝ → ℝ) (Q : ℝ → PropSt ℝ), (∀ d ∈ Set.Ici (0:ℝ), avar (-1) 0 (-1.5) { demo with dist := d } = .ok (a d, Q d)) ∧
    ContinuousOn a (Set.Ici 0) := by
  have H : ∀ d : ℝ, ∃ x : ℝ × PropSt ℝ, 0 ≤ d → avar (-1) 0 (-1.5) { demo with dist := d } = .ok x := by
    intro d
    by_cases hd : 0 ≤ d
    · obtain ⟨q, h⟩ := C56_avar_answers (p₀ := { demo with dist := d }) (p := { demo with dist := d }) (zt := -1) (zl := 0) (zc := -1.5)
        (ar := 20) (k := 5) (md := 12) (m := 2) (noLoc := true) (noSit := false) rfl .refl rfl ⟨by decide, by decide⟩ rfl
        ⟨by decide, by decide, rfl⟩ rfl (by norm_num [demo]) (by norm_num [demo]) (by norm_num [demo]) hd (by norm_num [demo])
      exact ⟨_, fun _ => h⟩
    · exact ⟨(0, demo), fun h => absurd h hd⟩
  choose f hf using H
  refine ⟨fun d => (f d).1, fun d => (f d).2, fun d hd => hf d hd, ?_⟩
  exact C68_avar (P₀ := fun d => { demo with dist := d }) (P := fun d => { demo with dist := d }) (Q := fun d => (f d).2)
    (ar := fun _ => 20) (zt := fun _ => -1) (zl := fun _ => 0) (zc := fun _ => -1.5) (k := 5) (md := 12) (m := 2) (noLoc := true)
    (noSit := false) ⟨by decide, by decide⟩ ⟨by decide, by decide, rfl⟩ (fun _ _ => rfl) (fun _ _ => .refl) (fun _ _ => rfl)
    (fun _ _ => rfl) (fun _ _ => rfl) (fun _ h => h) (fun _ _ => by norm_num [demo]) (fun _ _ => by norm_num [demo]) continuousOn_id
    continuousOn_const continuousOn_const continuousOn_const continuousOn_const continuousOn_const continuousOn_const continuousOn_const
    continuousOn_const (fun d hd => hf d hd)

example : ∃ a a' q q', avar 0 0 1 { demo with aref := some (-40) } = .ok (a, q) ∧
    avar 0 0 1 { demo with aref := some 3 } = .ok (a', q') ∧ 4.3 ≤ a' - a ∧ a' - a ≤ 43 := by
  obtain ⟨a, q, h⟩ := demo_answers 0 0 1 12 (-40)
  obtain ⟨a', q', h'⟩ := demo_answers 0 0 1 12 3
  have := C68_aref (p₀ := demo) rfl .refl h h' (by norm_num)
  norm_num at this ⊢
  exact ⟨a, ⟨q, h⟩, a', ⟨q', h'⟩, this⟩

/-- The hypotheses of the area statement, for the shipped grid on smooth earth. -/
example : ∃ L, L = roughLink areaLink.fmhz areaLink.dh areaLink.hg.x0 areaLink.hg.x1 301 2 2 (lossless areaLink.fmhz (decide (areaLink.ipol ≠ 0))) ∧
    0 < areaLink.hg.x0 ∧ 0 < areaLink.hg.x1 ∧ (L.ScatterOk L.d5 ∧ L.ScatterOk L.d6) ∧
      ∃ rows r, itmlogicArea gridDefault ⟨2, 2⟩ areaLink = .ok (rows, r) := by
  refine ⟨_, rfl, by norm_num [areaLink], by norm_num [areaLink], ?_, area_run areaLink_level.1 ⟨2, 2⟩ 50 50 areaQc⟩
  have hκ := curvature_pos (N := 301) (by norm_num) (by norm_num)
  have hb := qlraHe_bounds (k := 2) (hg := 1) (dh := 0) one_pos
  rw [qlraHe_real] at hb
  have := flat_regular (L := roughLink areaLink.fmhz areaLink.dh areaLink.hg.x0 areaLink.hg.x1 301 2 2 (lossless areaLink.fmhz
    (decide (areaLink.ipol ≠ 0)))) hκ ?_ ?_ 0
  · rcases this with h | h
    · exact absurd h.1 (lt_irrefl _)
    · exact h
  · show roughAngle (curvature 301) 0 (sitedHeight 2 1 0) + roughAngle (curvature 301) 0 (sitedHeight 2 1 0) = _
    rw [flat_angle (by linarith) (by linarith [hb.1])]
    show _ = -(roughHorizon (curvature 301) 0 (sitedHeight 2 1 0) + roughHorizon (curvature 301) 0 (sitedHeight 2 1 0)) * curvature 301
    ring
  · show 5 ≤ (24000 / 47.7 : ℝ) * sitedHeight 2 1 0
    have := hb.1
    have : (5 : ℝ) ≤ 24000 / 47.7 := by norm_num
    nlinarith

end Itm.Props
