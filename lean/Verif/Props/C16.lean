import Verif.Lemmas.Frame
import Verif.Lemmas.AvarFrame
import Verif.Lemmas.Demo
import Verif.Spec.History
import Verif.Spec.Limits

/-! C16, C17: the warning marker. C18: sign of the reference attenuation. C21: the distance argument. -/

namespace Itm
variable {α : Type} [PyNum α]

theorem lrKwx_range (p : PropSt α) (h : Horizon α) (hk : p.kwx ≤ 4) : p.kwx ≤ lrKwx p h ∧ lrKwx p h ≤ 4 := by
  unfold lrKwx
  dsimp only
  split_ifs <;> omega

theorem lrDistKwx_range {p q : PropSt α} (h : lrDistKwx p = .ok q) (hk : p.kwx ≤ 4) : p.kwx ≤ q.kwx ∧ q.kwx ≤ 4 := by
  unfold lrDistKwx at h
  by_cases h0 : 0.0 < p.dist
  · rw [if_pos h0] at h
    obtain ⟨l, _, h⟩ := bind_eq_ok.1 h
    simp only [pure_ok, ok_inj] at h
    rw [← h]
    simp only
    split_ifs <;> omega
  · rw [if_neg h0, pure_ok, ok_inj] at h; subst h; omega

theorem lrRun_kwx {d : α} {p q : PropSt α} (h : lrRun d p = .ok q) (hk : p.kwx ≤ 4) : p.kwx ≤ q.kwx ∧ q.kwx ≤ 4 := by
  unfold lrRun at h
  obtain ⟨p1, h1, h⟩ := bind_eq_ok.1 h
  obtain ⟨p2, h2, h⟩ := bind_eq_ok.1 h
  obtain ⟨p3, h3, h⟩ := bind_eq_ok.1 h
  have e : (lrSetDist d p).kwx = p.kwx := by unfold lrSetDist; split_ifs <;> rfl
  have := lrDistKwx_range h1 (by rw [e]; exact hk)
  rw [(lrClamp_frame h).2.2.1, (lrScat_frame h3).2.2.1, (lrLos_frame h2).2.2.1]
  omega

theorem lrprop_kwx {d : α} {p q : PropSt α} (h : lrprop d p = .ok q) (hk : p.kwx ≤ 4) : p.kwx ≤ q.kwx ∧ q.kwx ≤ 4 := by
  unfold lrprop at h
  dsimp only at h
  split_ifs at h with hm
  · rw [lrInit_eq] at h
    obtain ⟨p1, h1, h⟩ := bind_eq_ok.1 h
    obtain ⟨s, _, h1⟩ := bind_eq_ok.1 h1
    rw [pure_ok, ok_inj] at h1
    have e : p1.kwx = lrKwx p s.h := by rw [← h1]; rfl
    have r := lrKwx_range p s.h hk
    have := lrRun_kwx h (by omega)
    omega
  · exact lrRun_kwx h hk

theorem prepMarks_kwx (p : PropSt α) : (prepMarks p).kwx = p.kwx := by rw [prepMarks_eq]

theorem avar_kwx {p q : PropSt α} {a zt zl zc : α} (h : avar zt zl zc p = .ok (a, q)) (hk : p.kwx ≤ 4) :
    p.kwx ≤ q.kwx ∧ q.kwx ≤ 4 := by
  obtain ⟨r, m, c, v, ar, hr, _, _, _, _, rfl, _⟩ := avar_ok h
  have hk1 : p.kwx ≤ r.kwx ∧ r.kwx ≤ 4 := by
    unfold avarSetup at hr
    split_ifs at hr
    · obtain ⟨p1, h1, hr⟩ := bind_eq_ok.1 hr
      obtain ⟨p2, h2, hr⟩ := bind_eq_ok.1 hr
      obtain ⟨p3, h3, hr⟩ := bind_eq_ok.1 hr
      obtain ⟨p4, h4, hr⟩ := bind_eq_ok.1 hr
      have e1 : p.kwx ≤ p1.kwx ∧ p1.kwx ≤ 4 := by
        by_cases hl : 4 < p.lvar
        · obtain ⟨k, c, _, _, hp⟩ := (avarClimate_ok h1).2.2.1 hl
          rw [hp]; simp only; split_ifs <;> omega
        · rw [(avarClimate_ok h1).2.2.2 hl]; omega
      have e2 : p1.kwx ≤ p2.kwx ∧ p2.kwx ≤ 4 := by
        by_cases hl : 3 < p1.lvar
        · obtain ⟨md, _, hp⟩ := (avarMode_ok h2).2.2.2.2.1 hl
          rw [hp]; simp only; split_ifs <;> omega
        · rw [(avarMode_ok h2).2.2.2.2.2 hl]; omega
      obtain ⟨g, hp3⟩ := avarFreq_ok h3
      obtain ⟨x, hp4⟩ := avarDexa_ok h4
      obtain ⟨v, hp5⟩ := avarDist_ok hr
      have : r.kwx = p2.kwx := by rw [hp5, hp4, hp3]
      omega
    · rw [pure_ok, ok_inj] at hr; subst hr; omega
  have := avarKwx_ge m.kdv zt zl zc r.kwx
  simp only
  omega

end Itm

namespace Itm.Props
open Itm Itm.Spec
variable {α : Type} [PyNum α]

/-- **C16** In every history of parameter changes and calls, `kwx` never decreases and never exceeds 4. -/
theorem C16_kwx_cumulative {p q : PropSt α} (hr : Reach p q) (h4 : p.kwx ≤ 4) : p.kwx ≤ q.kwx ∧ q.kwx ≤ 4 := by
  induction hr with
  | refl => omega
  | @step r s op _ hs ih =>
    have key : r.kwx ≤ s.kwx ∧ s.kwx ≤ 4 := by
      cases op with
      | callLrprop d => exact lrprop_kwx (p := { r with lvar := max 1 r.lvar }) hs ih.2
      | callQlra kst =>
        obtain ⟨_, _, _, rfl⟩ := qlra_frame (show qlra kst r = .ok s from hs)
        rw [prepMarks_kwx]; exact ⟨le_refl _, ih.2⟩
      | callQlrpfl =>
        simp only [Op.run, qlrpfl] at hs
        obtain ⟨t, ht, hs⟩ := bind_eq_ok.1 hs
        obtain ⟨_, _, _, _, _, hp⟩ := qlrpflPrep_frame ht
        have e : t.kwx = r.kwx := by rw [hp, prepMarks_kwx]
        have := lrprop_kwx hs (by rw [e]; exact ih.2)
        rw [e] at this; exact this
      | callAvar zt zl zc =>
        simp only [Op.run] at hs
        obtain ⟨⟨a, t⟩, ht, hs⟩ := bind_eq_ok.1 hs
        simp only [pure_ok, ok_inj] at hs; subst hs
        exact avar_kwx ht ih.2
      | _ =>
        simp only [Op.run, pure_ok, ok_inj] at hs
        subst hs
        exact ⟨le_refl _, ih.2⟩
    omega

/-- Histories in which the marker really moves exist: an impossible climate takes it from 0 to at least 2, and the
theorem keeps it there for the rest of any history. -/
example (q r : PropSt α) (zt zl zc a : α) (p : PropSt α) (hp : p.kwx = 0)
    (h : avar zt zl zc { p with klim := some (-3), lvar := 5 } = .ok (a, q)) (hr : Reach q r) : 2 ≤ r.kwx ∧ r.kwx ≤ 4 := by
  have h1 := avar_kwx h (by simp only; omega)
  have h2 : 2 ≤ q.kwx := by
    obtain ⟨s, m, c, v, ar, hs, _, _, _, _, rfl, _⟩ := avar_ok h
    obtain ⟨k, c', md, hk, _, _, _, _, _, h4⟩ := avarSetup_all hs (by simp only; omega)
    have : k = -3 := by simpa using hk.symm
    rw [if_pos (.inl (.inl (by omega)))] at h4
    have := (avarKwx_ge m.kdv zt zl zc s.kwx).1
    simp only at h4 ⊢; omega
  have := C16_kwx_cumulative hr h1.2
  omega

/-! ### C18, C21 -/

/-- **C18** Every successful call leaves a nonnegative reference attenuation. -/
theorem C18_aref_nonneg {d : ℝ} {p q : PropSt ℝ} (h : lrprop d p = .ok q) : ∃ a, q.aref = some a ∧ 0 ≤ a := by
  have key : ∀ {r : PropSt ℝ}, lrRun d r = .ok q → ∃ a, q.aref = some a ∧ 0 ≤ a := by
    intro r h
    unfold lrRun at h
    obtain ⟨p1, h1, h⟩ := bind_eq_ok.1 h
    obtain ⟨p2, h2, h⟩ := bind_eq_ok.1 h
    obtain ⟨p3, h3, h⟩ := bind_eq_ok.1 h
    unfold lrClamp at h
    obtain ⟨a, _, h⟩ := bind_eq_ok.1 h
    rw [pure_ok, ok_inj] at h
    rw [← h]
    exact ⟨_, rfl, by simp only [pyMax_real, zero_lit]; exact le_max_right _ _⟩
  unfold lrprop at h
  dsimp only at h
  split_ifs at h with hm
  · obtain ⟨p1, h1, h⟩ := bind_eq_ok.1 h
    exact key h
  · exact key h

theorem lrRun_dist {d : α} {p q : PropSt α} (h : lrRun d p = .ok q) :
    q.dist = (if 0 ≤ p.mdp then d else p.dist) ∧ q.mdp = (if 0 ≤ p.mdp then 0 else p.mdp) := by
  unfold lrRun at h
  obtain ⟨p1, h1, h⟩ := bind_eq_ok.1 h
  obtain ⟨p2, h2, h⟩ := bind_eq_ok.1 h
  obtain ⟨p3, h3, h⟩ := bind_eq_ok.1 h
  have e1 : p1.dist = (lrSetDist d p).dist ∧ p1.mdp = (lrSetDist d p).mdp := by
    unfold lrDistKwx at h1
    by_cases h0 : 0.0 < (lrSetDist d p).dist
    · rw [if_pos h0] at h1
      obtain ⟨l, _, h1⟩ := bind_eq_ok.1 h1
      simp only [pure_ok, ok_inj] at h1
      rw [← h1]; exact ⟨rfl, rfl⟩
    · rw [if_neg h0, pure_ok, ok_inj] at h1; rw [h1]; exact ⟨rfl, rfl⟩
  have c := lrClamp_frame h
  have s := lrScat_frame h3
  have l := lrLos_frame h2
  rw [c.2.1, s.2.1, l.2.1, e1.1, c.2.2.2.1, s.2.2.2.1, l.2.2.2.1, e1.2]
  unfold lrSetDist
  split_ifs <;> exact ⟨rfl, rfl⟩

theorem lrprop_dist {d : α} {p q : PropSt α} (h : lrprop d p = .ok q) :
    q.dist = (if 0 ≤ p.mdp then d else p.dist) ∧ q.mdp = (if 0 ≤ p.mdp then 0 else p.mdp) := by
  unfold lrprop at h
  dsimp only at h
  split_ifs at h with hm
  · obtain ⟨p1, h1, h⟩ := bind_eq_ok.1 h
    rw [lrInit_eq] at h1
    obtain ⟨s, _, h1⟩ := bind_eq_ok.1 h1
    rw [pure_ok, ok_inj] at h1
    have := lrRun_dist h
    rw [← h1] at this
    exact this
  · exact lrRun_dist h

/-- **C21** Point-to-point mode: the distance argument is ignored altogether (answer, dictionary and exceptions). -/
theorem C21_p2p_ignores_argument {p : PropSt α} (hm : p.mdp < 0) (d d' : α) : lrprop d p = lrprop d' p := by
  have hm0 : p.mdp ≠ 0 := by omega
  rw [lrprop_setup hm0, lrprop_setup hm0]
  have : distOf p d = distOf p d' := by unfold distOf; rw [if_neg (by omega), if_neg (by omega)]
  rw [this]

/-- **C21** Point-to-point mode keeps `dist` and `mdp`. -/
theorem C21_p2p_keeps {d : α} {p q : PropSt α} (hm : p.mdp < 0) (h : lrprop d p = .ok q) :
    q.dist = p.dist ∧ q.mdp = p.mdp := by
  have := lrprop_dist h
  rw [if_neg (by omega), if_neg (by omega)] at this
  exact this

/-- **C21** Area mode takes the argument as the distance and marks the set-up as done. -/
theorem C21_area_takes {d : α} {p q : PropSt α} (hm : 0 ≤ p.mdp) (h : lrprop d p = .ok q) :
    q.dist = d ∧ q.mdp = 0 := by
  have := lrprop_dist h
  rw [if_pos hm, if_pos hm] at this
  exact this

end Itm.Props
