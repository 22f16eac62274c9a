import Verif.Props.C56
import Verif.Props.C95
import Verif.Model.Runners
import Verif.Spec.EndToEnd
import Verif.Lemmas.Frame
import Verif.Lemmas.RefineVar

/-! C96: with growing precision, the statistics and the loss approach the published ones, with an error of the order of the precision. -/

namespace Itm.Props
open Itm.Spec Filter Asymptotics Topology

variable {ι : Type} {l : Filter ι} {α : ι → Type} [∀ i, PyNum (α i)] {ε : ι → ℝ}

/-- **C96** In arithmetics of growing precision, on dictionaries and deviates known to that precision, a call of `avar` that brings everything up to
date finally returns, and approximates the published quantile with an error of the order of the precision: at every distance, in every climate and
kind of variability (situation variability not eliminated), for all deviates – also at the median, where the spread in time jumps, at the knee of its
distribution, at the distance where the effective distance changes its formula, and where negative attenuations begin to be softened. -/
theorem C96_quantile (F : Refining l α ε) {P : ∀ i, PropSt (α i)} {k md m : ℤ} {noLoc : Bool} {d dh h₀ h₁ w ar zt zl zc : ℝ}
    {R X Y Z : ∀ i, α i} (hl : ∀ᶠ i in l, (P i).lvar = 5) (hk : ∀ᶠ i in l, (P i).klim = some k) (hc : ClimateCode k)
    (hmd : ∀ᶠ i in l, (P i).mdvar = some md) (hm : ModeCode md m noLoc false) (hr : ∀ᶠ i in l, (P i).aref = some (R i)) (aR : F.Approx R ar)
    (ad : F.Approx (fun i => (P i).dist) d) (adh : F.Approx (fun i => (P i).dh) dh) (aw : F.Approx (fun i => (P i).wn) w)
    (a0 : F.Approx (fun i => (P i).he.x0) h₀) (a1 : F.Approx (fun i => (P i).he.x1) h₁) (aX : F.Approx X zt) (aY : F.Approx Y zl) (aZ : F.Approx Z zc)
    (pd : 0 < d) (pw : 0 < w) (p0 : 0 < h₀) (p1 : 0 < h₁) (ph : 0 ≤ dh) :
    ∃ (A : ∀ i, α i) (Q : ∀ i, PropSt (α i)), (∀ᶠ i in l, avar (X i) (Y i) (Z i) (P i) = .ok (A i, Q i)) ∧
      F.Approx A (quantile k m noLoc false d dh h₀ h₁ w ar zt zl zc) := by
  let p : PropSt ℝ := { blank 1 { hg := ⟨1, 1⟩, he := ⟨h₀, h₁⟩, dl := ⟨1, 1⟩, the := ⟨0, 0⟩, wn := w, dh := dh, ens := 301, gme := 1, zgnd := ⟨1, 0⟩ } with
    dist := d, lvar := 5, klim := some k, mdvar := some md, aref := some ar }
  have h20 : md < 20 := by
    obtain ⟨u1, u2, u3⟩ := hm
    rw [u3]
    cases noLoc <;> simp <;> omega
  have hs : StatApx F P p := by
    refine ⟨hl, ?_, ?_, OptApx.none, OptApx.none, OptApx.none, OptApx.none, OptApx.none, ?_, ad, adh, aw, a0, a1, pd, pw, p0, p1⟩
    · intro x hx
      obtain rfl := Option.some.inj hx
      exact ⟨fun _ => k, hk, Eventually.of_forall fun _ => rfl⟩
    · intro x hx
      obtain rfl := Option.some.inj hx
      exact ⟨fun _ => md, hmd, Eventually.of_forall fun _ => rfl, h20⟩
    · intro x hx
      obtain rfl := Option.some.inj hx
      exact ⟨R, hr, aR⟩
  obtain ⟨q, hq⟩ := C56_avar_answers (p₀ := p) (p := p) (zt := zt) (zl := zl) (zc := zc) rfl .refl rfl hc rfl hm rfl pw p0.le p1.le pd.le ph
  obtain ⟨b, hb, ha, -, -⟩ := refine_avar hs (fun c => absurd c (by change ¬ (5 : ℤ) ≤ 0; decide)) aX aY aZ _ hq
  exact ⟨fun i => (b i).1, fun i => (b i).2, hb, ha⟩

/-- **C96** The whole prediction: in arithmetics of growing precision, on inputs known to that precision, the reference attenuation, its quantile and
the free-space loss, computed one after the other, finally exist and add up to the published loss of the link, with an error of the order of the
precision, as long as the exact computation of the reference attenuation meets no threshold. -/
theorem C96_loss (F : Refining l α ε) {P : ∀ i, PropSt (α i)} {p q : PropSt ℝ} (hP : F.Inputs P p) {D X Y Z : ∀ i, α i} {d zt zl zc : ℝ}
    {k md m : ℤ} {noLoc : Bool} (hl : ∀ i, (P i).lvar = 5) (hk : ∀ i, (P i).klim = some k) (hc : ClimateCode k) (hmd : ∀ i, (P i).mdvar = some md)
    (hm : ModeCode md m noLoc false)
    (hD : F.Approx (fun i => if 0 ≤ p.mdp then D i else (P i).dist) (if 0 ≤ p.mdp then d else p.dist)) (hm0 : p.mdp ≠ 0) (a : Adm (inp p)) (pdh : 0 < p.dh)
    (hq : lrprop d p = .ok q) (pd : 0 < q.dist) (c : (linkOf p).Clear q.dist) (aX : F.Approx X zt) (aY : F.Approx Y zl) (aZ : F.Approx Z zc) :
    ∃ (Q R : ∀ i, PropSt (α i)) (A B : ∀ i, α i), (∀ᶠ i in l, lrprop (D i) (P i) = .ok (Q i) ∧ avar (X i) (Y i) (Z i) (Q i) = .ok (A i, R i) ∧
      freeSpace (Q i).wn (Q i).dist = .ok (B i)) ∧ F.Approx (fun i => B i + A i) ((linkOf p).loss k m noLoc false q.dist zt zl zc) := by
  obtain ⟨Q, T, hQ, aT⟩ := C95_attenuation F hP hD hm0 a pdh hq pd c
  have fr : ∀ᶠ i in l, LrFrame (P i) (Q i) := hQ.mono fun i hi => lrprop_frame hi.1
  have di : ∀ᶠ i in l, distOf (P i) (D i) = (Q i).dist := by
    filter_upwards [hQ] with i hi
    have h := hi.1
    rw [lrprop_setup (by rw [hP.mdp]; exact hm0)] at h
    obtain ⟨s, hs, h⟩ := bind_eq_ok.1 h
    obtain ⟨e, he, h⟩ := bind_eq_ok.1 h
    rw [pure_ok, ok_inj] at h
    rw [← h]
    rfl
  have aD : F.Approx (fun i => (Q i).dist) q.dist := by
    rw [(setup_call hm0 hq).1]
    refine Refining.Approx.congr ?_ di
    unfold distOf
    simp only [hP.mdp]
    exact hD
  have aW : F.Approx (fun i => (Q i).wn) p.wn := hP.wn.congr (fr.mono fun i f => (by obtain ⟨_, _, _, _, _, _, _, e⟩ := f; rw [e]; rfl : (P i).wn = (Q i).wn))
  obtain ⟨A, R, hA, aA⟩ := C96_quantile F (P := Q) (k := k) (md := md) (m := m) (noLoc := noLoc) (R := T)
    (fr.mono fun i f => by obtain ⟨_, _, _, _, _, _, _, e⟩ := f; rw [e]; exact hl i) (fr.mono fun i f => by obtain ⟨_, _, _, _, _, _, _, e⟩ := f; rw [e]; exact hk i) hc (fr.mono fun i f => by obtain ⟨_, _, _, _, _, _, _, e⟩ := f; rw [e]; exact hmd i) hm (hQ.mono fun i f => f.2) aT aD
    (hP.dh.congr (fr.mono fun i f => by obtain ⟨_, _, _, _, _, _, _, e⟩ := f; rw [e]; rfl)) aW (hP.he0.congr (fr.mono fun i f => by obtain ⟨_, _, _, _, _, _, _, e⟩ := f; rw [e]; rfl)) (hP.he1.congr (fr.mono fun i f => by obtain ⟨_, _, _, _, _, _, _, e⟩ := f; rw [e]; rfl)) aX aY aZ pd a.wn a.he0 a.he1 pdh.le
  have fs : Follows l F.Approx (fun i => freeSpace (Q i).wn (Q i).dist) (freeSpace p.wn q.dist) := by
    unfold freeSpace
    refine Follows.bind (Follows.log (((Refining.Approx.lit _ _ _).mul aW).mul aD)) (fun U u _ hu => ?_)
    exact Follows.pure ((Refining.Approx.lit _ _ _).mul hu)
  have pw : 0 < p.wn := a.wn
  have ex : freeSpace p.wn q.dist = .ok (8.685890 * Real.log (2 * p.wn * q.dist)) := by
    unfold freeSpace
    rw [npLog_ok (by norm_num; positivity), ok_bind, pure_ok, show (2.0 : ℝ) = 2 by norm_num]
  obtain ⟨B, hB, aB⟩ := fs _ ex
  refine ⟨Q, R, A, B, ?_, aB.add aA⟩
  filter_upwards [hQ, hA, hB] with i u1 u2 u3
  exact ⟨u1.1, u2, u3⟩

/-- Non-vacuity: the hilly link in fixed-point numbers, at every distance but that of the horizon, for all deviates, in climate 5 with broadcast
variability. -/
example (d zt zl zc : ℝ) (h0 : 0 < d) (hd : d ≠ 160000) : ∃ (Q R : ∀ n, PropSt (Fixed n)) (A B : ∀ n, Fixed n),
    (∀ᶠ n in atTop, lrprop ⟨grid n d⟩ { blank 1 (gridIn n hillIn) with lvar := 5, klim := some 5, mdvar := some 3 } = .ok (Q n) ∧
      avar ⟨grid n zt⟩ ⟨grid n zl⟩ ⟨grid n zc⟩ (Q n) = .ok (A n, R n) ∧ freeSpace (Q n).wn (Q n).dist = .ok (B n)) ∧
    (fun n => (B n + A n).val - (linkOf hill).loss 5 3 false false d zt zl zc) =O[atTop] fun n => (1 / 2 : ℝ) ^ n := by
  obtain ⟨q, hq⟩ := hill_total d h0
  have e : q.dist = d := (setup_call (by decide) hq).1
  have hP : gridRefining.Inputs (fun n => { blank 1 (gridIn n hillIn) with lvar := 5, klim := some 5, mdvar := some 3 }) hill :=
    ⟨fun _ => rfl, grid_approx _, grid_approx _, grid_approx _, grid_approx _, grid_approx _, grid_approx _, grid_approx _, grid_approx _,
      grid_approx _, grid_approx _, grid_approx _, grid_approx _, grid_approx _, grid_approx _⟩
  obtain ⟨Q, R, A, B, h, a⟩ := C96_loss gridRefining (D := fun n => ⟨grid n d⟩) (X := fun n => ⟨grid n zt⟩) (Y := fun n => ⟨grid n zl⟩)
    (Z := fun n => ⟨grid n zc⟩) (k := 5) (md := 3) (m := 3) (noLoc := false) hP (fun _ => rfl) (fun _ => rfl) ⟨by norm_num, by norm_num⟩ (fun _ => rfl)
    ⟨by norm_num, by norm_num, by norm_num⟩ (grid_approx d) (by decide) hill_adm (show (0 : ℝ) < 90 by norm_num) hq (by rw [e]; exact h0)
    (by rw [e]; exact hill_clear hd) (grid_approx zt) (grid_approx zl) (grid_approx zc)
  rw [e] at a
  exact ⟨Q, R, A, B, h, a.2⟩

end Itm.Props
