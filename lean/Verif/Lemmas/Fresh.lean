import Verif.Lemmas.Sweep
import Verif.Lemmas.Witness

/-! Over the reals: the reference attenuation as a function of the set-up and the distance. -/

namespace Itm
open Spec

theorem map_ok {β γ : Type} {x : Py β} {f : β → γ} {c : γ} : x.map f = .ok c ↔ ∃ a, x = .ok a ∧ f a = c := by
  cases x with
  | error e => simp [Except.map]
  | ok a => simp [Except.map]

theorem runC_far {i : LrIn ℝ} {h : Horizon ℝ} {l : DiffLine ℝ} {D : ℝ} {c : LrCache ℝ} (I : CInv i h l c) (hD : h.dlsa ≤ D) :
    (runC i h l D c).map (fun c => c.aref) = (scatC i h l 0.0).map (fun x => some (max (farAref l x.2.2 D) 0)) := by
  unfold runC losStage scatStage scatSetupStage clampStage
  rw [if_neg (not_lt.2 hD), pure_bind', if_pos (.inr hD)]
  by_cases hw : c.wscat = false
  · rw [if_pos hw, I.a1 hw]
    cases hx : scatC i h l 0.0 with
    | error e => rfl
    | ok x =>
      simp only [ok_bind, pure_ok, need, pyMax_real, zero_lit, Except.map]
  · rw [if_neg hw]
    obtain ⟨x, hx, hs, _, _⟩ := I.scat (by simpa using hw)
    rw [hx]
    simp only [ok_bind, pure_ok, need, hs, pyMax_real, zero_lit, Except.map]

theorem runC_nonpos {i : LrIn ℝ} {h : Horizon ℝ} {l : DiffLine ℝ} {D : ℝ} {c : LrCache ℝ} (I : CInv i h l c) (hD : D < h.dlsa) (h0 : D ≤ 0) :
    (runC i h l D c).map (fun c => c.aref) = (do
      let _ ← losC i h l
      (scatC i h l 0.0).map (fun x => some (max (farAref l x.2.2 D) 0))) := by
  unfold runC losStage scatStage scatSetupStage clampStage
  have h0' : ¬ (0.0 : ℝ) < D := by rw [zero_lit]; exact not_lt.2 h0
  have h0'' : D ≤ (0.0 : ℝ) := by rw [zero_lit]; exact h0
  rw [if_pos hD]
  by_cases hw : c.wlos = false
  · rw [if_pos hw]
    cases hk : losC i h l with
    | error e => rfl
    | ok k =>
      simp only [ok_bind, pure_ok]
      rw [if_neg h0', ok_bind, if_pos (.inl h0'')]
      by_cases hs : c.wscat = false
      · simp only [hs, if_true, I.a1 hs]
        cases hx : scatC i h l 0.0 with
        | error e => rfl
        | ok x =>
          simp only [ok_bind, need, pyMax_real, zero_lit, Except.map]
      · simp only [hs, if_false, ok_bind]
        obtain ⟨x, hx, hsc, _, _⟩ := I.scat (by simpa using hs)
        rw [hx]
        simp [need, hsc, zero_lit, Except.map, ok_bind]
  · rw [if_neg hw]
    obtain ⟨k, hk, -⟩ := I.los (by simpa using hw)
    rw [hk]
    simp only [ok_bind, pure_ok]
    rw [if_pos (.inl h0'')]
    by_cases hs : c.wscat = false
    · simp only [hs, if_true, I.a1 hs]
      cases hx : scatC i h l 0.0 with
      | error e => rfl
      | ok x =>
        simp only [ok_bind, need, pyMax_real, zero_lit, Except.map]
    · simp only [hs, if_false, ok_bind]
      obtain ⟨x, hx, hsc, _, _⟩ := I.scat (by simpa using hs)
      rw [hx]
      simp [need, hsc, zero_lit, Except.map, ok_bind]

theorem runC_near {i : LrIn ℝ} {h : Horizon ℝ} {l : DiffLine ℝ} {D : ℝ} {c : LrCache ℝ} (hD : D < h.dlsa) (h0 : 0 < D)
    (hw : c.wlos = false) :
    (runC i h l D c).map (fun c => c.aref) =
      (losC i h l).map (fun k => some (max (k.ael + k.ak1 * D + k.ak2 * Real.log D) 0)) := by
  unfold runC losStage scatStage clampStage losAref
  have h0' : (0.0 : ℝ) < D := by rw [zero_lit]; exact h0
  have hno : ¬ (D ≤ (0.0 : ℝ) ∨ h.dlsa ≤ D) := by rw [zero_lit]; push Not; exact ⟨h0, hD⟩
  rw [if_pos hD, if_pos hw]
  cases hk : losC i h l with
  | error e => rfl
  | ok k =>
    simp only [ok_bind, pure_ok]
    rw [if_pos h0', npLog_ok h0, ok_bind, ok_bind, ok_bind, if_neg hno, ok_bind]
    simp only [need, ok_bind, pyMax_real, zero_lit, Except.map]

theorem arefOf_setup {p : PropSt ℝ} {s : Setup ℝ} (hm : 0 < p.mdp) (hs : setupC p.mdp (inp p) = .ok s) (D : ℝ) :
    arefOf (lrprop D p) = (runC (inp p) s.h s.l D { cacheOf p with wlos := false, wscat := false, ascat1 := 0.0 }).map (fun c => c.aref) := by
  have hd : distOf p D = D := by unfold distOf; rw [if_pos (by omega)]
  unfold arefOf
  rw [lrprop_setup (by omega), hs, ok_bind, hd]
  cases runC (inp p) s.h s.l D { cacheOf p with wlos := false, wscat := false, ascat1 := 0.0 } with
  | error e => rfl
  | ok c => rfl

theorem arefOf_cont {p q : PropSt ℝ} {s : Setup ℝ} (I : SInv p s q) (D : ℝ) :
    arefOf (lrprop D q) = (runC (inp p) s.h s.l D (cacheOf q)).map (fun c => c.aref) := by
  unfold arefOf
  rw [lrprop_cont I.mdp I.hor I.line, I.inp]
  cases runC (inp p) s.h s.l D (cacheOf q) with
  | error e => rfl
  | ok c => rfl

theorem arefOf_ok {r : Py (PropSt ℝ)} {a : ℝ} (h : arefOf r = .ok (some a)) : ∃ q, r = .ok q ∧ q.aref = some a := map_ok.1 h

/-! ### the smooth link -/

/-- The smooth link as a freshly prepared area dictionary. -/
noncomputable def smooth : PropSt ℝ := blank 1 smoothIn
/-- The skew link as a freshly prepared area dictionary. -/
noncomputable def skew : PropSt ℝ := blank 1 skewIn

/-- Everything about the smooth link: set-up, both coefficient sets, their signs. -/
theorem smooth_all : ∃ s k x, setupC 1 smoothIn = .ok s ∧ s.h = horR smoothIn ∧ s.h.dlsa = 160000 ∧ losC smoothIn s.h s.l = .ok k ∧
    scatC smoothIn s.h s.l 0.0 = .ok x ∧ 3.2e-4 < s.l.emd ∧ s.l.aed < 0 ∧ 0 < s.l.aed + s.l.emd * 160000 ∧ 0 < k.ak1 ∧ k.ak2 = 0 ∧
    (losDR smoothIn s.h s.l).2 < s.h.dlsa ∧ 0 ≤ x.2.2.ems := by
  obtain ⟨s, hs, hh, he, _, ha, h2⟩ := smooth_setup
  obtain ⟨h12, k, hk, hk1, hk2⟩ := smooth_los he ha h2
  obtain ⟨x, hx, hxe, _⟩ := tangent_scat (a1 := 0.0) (.inl rfl) (lt_trans (by norm_num) he)
  have hsa : (horR smoothIn).dlsa = 160000 := by unfold smoothIn; rw [tangent_hor (by norm_num)]
  refine ⟨s, k, x, hs, hh, ?_, ?_, ?_, he, ha, h2, hk1, hk2, ?_, hxe⟩
  · rw [hh]; exact hsa
  · rw [hh]; exact hk
  · rw [hh]; exact hx
  · rw [hh]; exact h12

theorem smooth_hor : lrHorizon smooth = .ok (horR smoothIn) :=
  horC_ok (i := smoothIn) (show (0:ℝ) ≤ 400 by norm_num) (show (0:ℝ) ≤ 400 by norm_num) (show (0:ℝ) < 1.25e-7 by norm_num)

/-- Every positive distance is answered on the smooth link. -/
theorem smooth_total (D : ℝ) (hD : 0 < D) : ∃ q, lrprop D smooth = .ok q := by
  obtain ⟨s, k, x, hs, _, _, hk, hx, _⟩ := smooth_all
  have hm : 0 < smooth.mdp := by decide
  have e := arefOf_setup (p := smooth) hm hs D
  rw [show inp smooth = smoothIn from rfl] at e
  by_cases c : D < s.h.dlsa
  · rw [runC_near c hD rfl, hk] at e
    obtain ⟨q, hq, _⟩ := arefOf_ok e; exact ⟨q, hq⟩
  · rw [runC_far (freshCInv _ _ _ _) (not_lt.1 c), hx] at e
    obtain ⟨q, hq, _⟩ := arefOf_ok e; exact ⟨q, hq⟩

/-- Distances beyond the horizon are answered on the skew link. -/
theorem skew_far (D : ℝ) (hD : 160000 ≤ D) : ∃ q, lrprop D skew = .ok q := by
  obtain ⟨s, hs, hh, he⟩ := skew_setup
  obtain ⟨x, hx, _⟩ := tangent_scat (a1 := 0.0) (.inr rfl) (lt_trans (by norm_num) he)
  have hsa : (horR skewIn).dlsa = 160000 := by unfold skewIn; rw [tangent_hor (by norm_num)]
  have e := arefOf_setup (p := skew) (by decide) hs D
  rw [show inp skew = skewIn from rfl, hh, runC_far (freshCInv _ _ _ _) (by rw [hsa]; exact hD)] at e
  rw [show scatC skewIn (horR skewIn) s.l 0.0 = .ok x from hx] at e
  obtain ⟨q, hq, _⟩ := arefOf_ok e; exact ⟨q, hq⟩

end Itm
