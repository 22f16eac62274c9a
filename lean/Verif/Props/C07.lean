import Verif.Spec.History
import Verif.Lemmas.AvarState
import Verif.Lemmas.Frame

/-! C07: `avar` caching is invisible. -/

namespace Itm.Props
open Itm Itm.Spec
variable {α : Type} [PyNum α]

theorem cacheInv_prepMarks {p : PropSt α} (q : PropSt α) (h : CacheInv p)
    (h1 : q.lvar = p.lvar) (h2 : q.klim = p.klim) (h3 : q.mdvar = p.mdvar) (h4 : q.clim = p.clim)
    (h5 : q.vmode = p.vmode) : CacheInv (prepMarks q) := by
  rw [prepMarks_eq]
  constructor <;> intro h' <;> simp only at h' ⊢
  · split_ifs at h' with a b <;> simp only [a, if_false]
    · omega
    · rw [h2, h4]; exact h.clim (by omega)
    · rw [h2, h4]; exact h.clim (by omega)
  · split_ifs at h' with a b
    · omega
    · omega
    · simp only [b, if_false]
      rw [h3, h5]; exact h.mode (by omega)
  all_goals split_ifs at h' <;> omega

theorem cacheInv_lrFrame {p q : PropSt α} (h : CacheInv p) (h1 : 1 ≤ p.lvar) (hf : LrFrame p q) : CacheInv q := by
  obtain ⟨_, _, _, _, _, _, _, rfl⟩ := hf
  constructor <;> intro h'
  · exact h.clim h'
  · exact h.mode h'
  · exact h.freq h'
  · exact h.dexa h'
  · have : p.lvar ≤ 0 := h'
    omega

theorem cacheInv_step {p q : PropSt α} (h : CacheInv p) (op : Op α) (hq : op.run p = .ok q) : CacheInv q := by
  cases op with
  | setDist x =>
    simp only [Op.run, pure_ok, ok_inj] at hq; subst hq
    constructor <;> intro h' <;> simp only at h'
    · exact h.clim (by omega)
    · exact h.mode (by omega)
    · exact h.freq (by omega)
    · exact h.dexa (by omega)
    · omega
  | setDh x =>
    simp only [Op.run, pure_ok, ok_inj] at hq; subst hq
    constructor <;> intro h' <;> simp only at h'
    · exact h.clim (by omega)
    · exact h.mode (by omega)
    · exact h.freq (by omega)
    · exact h.dexa (by omega)
    · omega
  | setHe x =>
    simp only [Op.run, pure_ok, ok_inj] at hq; subst hq
    constructor <;> intro h' <;> simp only at h'
    · exact h.clim (by omega)
    · exact h.mode (by omega)
    · exact h.freq (by omega)
    all_goals omega
  | setWn x =>
    simp only [Op.run, pure_ok, ok_inj] at hq; subst hq
    constructor <;> intro h' <;> simp only at h'
    · exact h.clim (by omega)
    · exact h.mode (by omega)
    all_goals omega
  | setMdvar m =>
    simp only [Op.run, pure_ok, ok_inj] at hq; subst hq
    constructor <;> intro h' <;> simp only at h'
    · exact h.clim (by omega)
    all_goals omega
  | setKlim k =>
    simp only [Op.run, pure_ok, ok_inj] at hq; subst hq
    constructor <;> intro h' <;> simp only at h' <;> omega
  | setAref x =>
    simp only [Op.run, pure_ok, ok_inj] at hq; subst hq
    exact ⟨h.clim, h.mode, h.freq, h.dexa, h.varc⟩
  | setPath x =>
    simp only [Op.run, pure_ok, ok_inj] at hq; subst hq
    exact ⟨h.clim, h.mode, h.freq, h.dexa, h.varc⟩
  | raise n =>
    simp only [Op.run, pure_ok, ok_inj] at hq; subst hq
    exact h.raise (by omega)
  | callLrprop d =>
    simp only [Op.run] at hq
    exact cacheInv_lrFrame (h.raise (n := max 1 p.lvar) (by omega)) (by simp only; omega) (lrprop_frame hq)
  | callQlra kst =>
    simp only [Op.run] at hq
    obtain ⟨_, _, _, rfl⟩ := qlra_frame hq
    exact cacheInv_prepMarks _ h rfl rfl rfl rfl rfl
  | callQlrpfl =>
    simp only [Op.run, qlrpfl] at hq
    obtain ⟨r, hr, hq⟩ := bind_eq_ok.1 hq
    obtain ⟨_, _, _, _, _, rfl⟩ := qlrpflPrep_frame hr
    have hf := lrprop_frame hq
    refine cacheInv_lrFrame ?_ ?_ hf
    · exact cacheInv_prepMarks _ h rfl rfl rfl rfl rfl
    · exact le_trans (by norm_num) (prepMarks_lvar _)
  | callAvar zt zl zc =>
    simp only [Op.run] at hq
    obtain ⟨⟨a, r⟩, hr, hq⟩ := bind_eq_ok.1 hq
    simp only [pure_ok, ok_inj] at hq; subst hq
    exact (avar_state h hr).1

theorem cacheInv_reach {p q : PropSt α} (h5 : 5 ≤ p.lvar) (hr : Reach p q) : CacheInv q := by
  induction hr with
  | refl => exact cacheInv_of_five h5
  | step op _ hs ih => exact cacheInv_step ih op hs

/-- **C07** In any history that follows the `lvar` protocol and starts with `lvar = 5`, the answer (or exception)
of `avar` at any point is the one a full recomputation (`lvar = 5`) would give there. -/
theorem C07_avar_caching_invisible {p q : PropSt α} (h5 : p.lvar = 5) (hr : Reach p q) (zt zl zc : α) :
    (Prod.fst <$> avar zt zl zc q : Py α) = Prod.fst <$> avar zt zl zc { q with lvar := 5 } := by
  rw [avar_value (cacheInv_reach (by omega) hr), avar_value (p := { q with lvar := 5 }) (cacheInv_of_five (le_refl _))]
  rfl

/-- Non-trivial histories exist: change the distance, ask, change the climate, ask. -/
example (p q r : PropSt α) (x zt zl zc a b : α) (h5 : p.lvar = 5)
    (h1 : avar zt zl zc { p with dist := x, lvar := max p.lvar 1 } = .ok (a, q))
    (h2 : avar zt zl zc { q with klim := some 9, lvar := max q.lvar 5 } = .ok (b, r)) :
    Reach p r ∧ (Prod.fst <$> avar zl zt zc r : Py α) = Prod.fst <$> avar zl zt zc { r with lvar := 5 } := by
  have hr : Reach p r := by
    refine .step (.callAvar zt zl zc) (.step (q := q) (.setKlim 9) (.step (.callAvar zt zl zc) (.step (.setDist x) .refl rfl) ?_) rfl) ?_
    · simp only [Op.run, h1]; rfl
    · simp only [Op.run, h2]; rfl
  exact ⟨hr, C07_avar_caching_invisible h5 hr zl zt zc⟩

end Itm.Props
