import Verif.Lemmas.Fresh
import Verif.Props.C16

/-! C20: an area sweep and its distances. C22: set-up and lazily computed coefficients. -/

namespace Itm.Props
open Itm Itm.Spec

/-- **C20** (as far as it holds) After any sweep none of whose distances was below `dlsa`, and for any distance not
below `dlsa` (or not positive) after any sweep, a call answers exactly what a fresh preparation would answer, exceptions included.
Full statement: the same without the last hypothesis; it is false, see `C20_sweep_refuted`. -/
theorem C20_sweep_partial {p q : PropSt ℝ} {h : Horizon ℝ} {ds : List ℝ} (hm : 0 < p.mdp) (hq : sweep ds p = .ok q)
    (hh : lrHorizon p = .ok h) (D : ℝ) (hD : h.dlsa ≤ D ∨ D ≤ 0 ∨ ∀ d ∈ ds, h.dlsa ≤ d) :
    arefOf (lrprop D q) = arefOf (lrprop D p) := by
  cases ds with
  | nil => rw [sweep, pure_ok, ok_inj] at hq; rw [hq]
  | cons d ds =>
    obtain ⟨s, hs, I, _, _⟩ := sweep_inv hm (by simp) hq
    have eh : s.h = h := by
      unfold setupC at hs
      obtain ⟨h0, hh0, hs⟩ := bind_eq_ok.1 hs
      obtain ⟨c0, _, hs⟩ := bind_eq_ok.1 hs
      obtain ⟨l0, _, hs⟩ := bind_eq_ok.1 hs
      rw [pure_ok, ok_inj] at hs
      rw [← hs]
      rw [lrHorizon_eq, hh0, ok_inj] at hh
      exact hh
    rw [arefOf_cont I, arefOf_setup hm hs]
    by_cases c : s.h.dlsa ≤ D
    · rw [runC_far I.cache c, runC_far (freshCInv _ _ _ _) c]
    · by_cases h0 : D ≤ 0
      · rw [runC_nonpos I.cache (not_le.1 c) h0, runC_nonpos (freshCInv _ _ _ _) (not_le.1 c) h0]
      rw [eh] at c
      have hall := (hD.resolve_left c).resolve_left h0
      have hw : q.wlos = false := by
        rw [sweep] at hq
        obtain ⟨q1, h1, hq⟩ := bind_eq_ok.1 hq
        obtain ⟨s', hs', I1, _⟩ := first_inv hm h1
        rw [hs, ok_inj] at hs'
        subst hs'
        refine sweep_wlos I1 hq (first_wlos hm h1 hs ?_) ?_
        · rw [eh]; exact not_lt.2 (hall d (by simp))
        · intro d' hd'; rw [eh]; exact not_lt.2 (hall d' (by simp [hd']))
      have hw' : (cacheOf q).wlos = false := hw
      rw [← eh] at c
      rw [runC_near (not_le.1 c) (not_le.1 h0) hw', runC_near (not_le.1 c) (not_le.1 h0) rfl]

/-- What happens instead: once some distance below `dlsa` has been asked, every later call at a distance in
`(0, dlsa)` returns the previous answer, whatever the distance. -/
theorem C20_stale_answer {p q : PropSt ℝ} {h : Horizon ℝ} {ds : List ℝ} (hm : 0 < p.mdp) (hq : sweep ds p = .ok q)
    (hh : lrHorizon p = .ok h) {d D : ℝ} (hd : d ∈ ds) (hdl : d < h.dlsa) (h0 : 0 < D) (hD : D < h.dlsa) :
    arefOf (lrprop D q) = .ok q.aref := by
  cases ds with
  | nil => simp at hd
  | cons d' ds =>
    obtain ⟨s, hs, I, hw, _⟩ := sweep_inv hm (by simp) hq
    have eh : s.h = h := by
      unfold setupC at hs
      obtain ⟨h0, hh0, hs⟩ := bind_eq_ok.1 hs
      obtain ⟨c0, _, hs⟩ := bind_eq_ok.1 hs
      obtain ⟨l0, _, hs⟩ := bind_eq_ok.1 hs
      rw [pure_ok, ok_inj] at hs
      rw [← hs]
      rw [lrHorizon_eq, hh0, ok_inj] at hh
      exact hh
    have hwl : q.wlos = true := hw d hd (by rw [eh]; exact hdl)
    obtain ⟨a, ha, ha0⟩ : ∃ a, q.aref = some a ∧ 0 ≤ a := by
      have last : ∀ (e : ℝ) (es : List ℝ) (r : PropSt ℝ), sweep (e :: es) r = .ok q → ∃ r' e', lrprop e' r' = .ok q := by
        intro e es
        induction es generalizing e with
        | nil =>
          intro r hr
          rw [sweep] at hr
          obtain ⟨q1, h1, hr⟩ := bind_eq_ok.1 hr
          rw [sweep, pure_ok, ok_inj] at hr
          exact ⟨r, e, by rw [h1, hr]⟩
        | cons e2 es ih =>
          intro r hr
          rw [sweep] at hr
          obtain ⟨q1, h1, hr⟩ := bind_eq_ok.1 hr
          exact ih e2 q1 hr
      obtain ⟨r', e', hl⟩ := last d' ds p hq
      exact C18_aref_nonneg hl
    rw [arefOf_cont I]
    unfold runC losStage scatStage clampStage
    have n0 : ¬ (D ≤ (0.0 : ℝ) ∨ s.h.dlsa ≤ D) := by rw [zero_lit, eh]; push Not; exact ⟨h0, hD⟩
    have e1 : (cacheOf q).wlos = true := hwl
    have e2 : (cacheOf q).aref = some a := ha
    rw [if_pos (by rw [eh]; exact hD), if_neg (by rw [e1]; simp), pure_bind', if_neg n0, pure_bind', e2]
    simp only [need, ok_bind, pure_ok, Except.map, pyMax_real, zero_lit, ha, max_eq_left ha0]

theorem sweep_snoc {ds : List ℝ} {D : ℝ} {p q : PropSt ℝ} (h : sweep (ds ++ [D]) p = .ok q) : ∃ r, sweep ds p = .ok r ∧ lrprop D r = .ok q := by
  induction ds generalizing p with
  | nil =>
    rw [List.nil_append, sweep] at h
    obtain ⟨q1, h1, h⟩ := bind_eq_ok.1 h
    rw [sweep, pure_ok, ok_inj] at h
    exact ⟨p, rfl, by rw [h1, h]⟩
  | cons d ds ih =>
    rw [List.cons_append, sweep] at h
    obtain ⟨q1, h1, h⟩ := bind_eq_ok.1 h
    obtain ⟨r, hr, hl⟩ := ih h
    exact ⟨r, by rw [sweep, h1, ok_bind]; exact hr, hl⟩

/-- **C20** (exactly) What a sweep leaves is the answer a fresh preparation gives at one of its distances, and `AnswerFor` says at which one. -/
theorem C20_which {p : PropSt ℝ} {h : Horizon ℝ} (hm : 0 < p.mdp) (hh : lrHorizon p = .ok h) {ds : List ℝ} (hn : ds ≠ []) :
    ∀ {q : PropSt ℝ}, sweep ds p = .ok q → ∃ E, AnswerFor h.dlsa ds E ∧ arefOf (lrprop E p) = .ok q.aref := by
  induction ds using List.reverseRecOn with
  | nil => exact absurd rfl hn
  | append_singleton ds D ih =>
    intro q hq
    obtain ⟨r, hr, hl⟩ := sweep_snoc hq
    have e : arefOf (lrprop D r) = .ok q.aref := by rw [hl]; rfl
    by_cases c : h.dlsa ≤ D ∨ D ≤ 0 ∨ ∀ d ∈ ds, h.dlsa ≤ d
    · exact ⟨D, .own ds D c, by rw [← C20_sweep_partial hm hr hh D c, e]⟩
    · push Not at c
      obtain ⟨hD, h0, d, hd, hdl⟩ := c
      obtain ⟨E, hE, ha⟩ := ih (List.ne_nil_of_mem hd) hr
      refine ⟨E, .kept ds D E h0 hD ⟨d, hd, hdl⟩ hE, ?_⟩
      rw [ha, ← e, C20_stale_answer hm hr hh hd hdl h0 hD]

/-- The line-of-sight answers of the smooth link at two distances differ. -/
theorem smooth_two : ∃ D₁ D₂ : ℝ, 0 < D₁ ∧ D₁ < D₂ ∧ D₂ < 160000 ∧
    ∃ a₁ a₂, arefOf (lrprop D₁ smooth) = .ok (some a₁) ∧ arefOf (lrprop D₂ smooth) = .ok (some a₂) ∧ a₁ < a₂ := by
  obtain ⟨s, k, x, hs, _, hsa, hk, _, _, _, h2, hk1, hk2, _⟩ := smooth_all
  have hm : 0 < smooth.mdp := by decide
  obtain ⟨_, hmeet⟩ := losC_meets hk
  rw [hsa, hk2, zero_mul, add_zero] at hmeet
  set a2 := s.l.aed + s.l.emd * 160000 with ha2
  have hmeet' : k.ael = a2 - k.ak1 * 160000 := by linarith
  have near : ∀ D, 0 < D → D < 160000 → arefOf (lrprop D smooth) = .ok (some (max (a2 + k.ak1 * (D - 160000)) 0)) := by
    intro D h0 hD
    rw [arefOf_setup hm hs, show inp smooth = smoothIn from rfl, runC_near (by rw [hsa]; exact hD) h0 rfl, hk]
    simp only [Except.map, hk2, zero_mul, add_zero, hmeet']
    rw [show a2 - k.ak1 * 160000 + k.ak1 * D = a2 + k.ak1 * (D - 160000) by ring]
  set e := min (a2 / (2 * k.ak1)) 1000 with he
  have he0 : 0 < e := lt_min (by positivity) (by norm_num)
  have he1 : e ≤ 1000 := min_le_right _ _
  have he2 : k.ak1 * e ≤ a2 / 2 := by
    have : e ≤ a2 / (2 * k.ak1) := min_le_left _ _
    calc k.ak1 * e ≤ k.ak1 * (a2 / (2 * k.ak1)) := mul_le_mul_of_nonneg_left this hk1.le
      _ = a2 / 2 := by field_simp
  refine ⟨1, 160000 - e, by norm_num, by linarith, by linarith, _, _, near 1 (by norm_num) (by norm_num),
    near _ (by linarith) (by linarith), ?_⟩
  have hpos : 0 < a2 + k.ak1 * (160000 - e - 160000) := by nlinarith
  refine max_lt ?_ ?_
  · refine lt_of_lt_of_le ?_ (le_max_left _ _)
    have : k.ak1 * (1 - 160000) < k.ak1 * (160000 - e - 160000) := mul_lt_mul_of_pos_left (by linarith) hk1
    linarith
  · exact lt_of_lt_of_le hpos (le_max_left _ _)

/-- **C20** (refuted) There are a preparation and two distances inside the line-of-sight region such that asking for
the first spoils the answer for the second. -/
theorem C20_sweep_refuted : ¬ ∀ (p q : PropSt ℝ) (ds : List ℝ) (D : ℝ), 0 < p.mdp → sweep ds p = .ok q →
    arefOf (lrprop D q) = arefOf (lrprop D p) := by
  intro hall
  obtain ⟨D₁, D₂, h0, h12, h2, a₁, a₂, e1, e2, hlt⟩ := smooth_two
  obtain ⟨q, hq, ha⟩ := arefOf_ok e1
  have hsw : sweep [D₁] smooth = .ok q := by rw [sweep, hq, ok_bind, sweep]; rfl
  obtain ⟨s, _, _, hs, hh, hsa, _⟩ := smooth_all
  have hor : lrHorizon smooth = .ok s.h := by
    rw [hh]; exact smooth_hor
  have hst := C20_stale_answer (p := smooth) (by decide) hsw hor (d := D₁) (D := D₂) (by simp)
    (by rw [hsa]; linarith) (by linarith) (by rw [hsa]; exact h2)
  have := hall smooth q [D₁] D₂ (by decide) hsw
  rw [hst, e2, ok_inj, ha] at this
  exact hlt.ne (Option.some.inj this)

/-- The hypotheses of `C20_sweep_partial` are met by real sweeps: three distances beyond the horizon, then one inside. -/
example : ∃ q, sweep [400000, 200000, 300000] smooth = .ok q ∧ arefOf (lrprop 50000 q) = arefOf (lrprop 50000 smooth) := by
  obtain ⟨s, k, x, hs, hh, hsa, _, hx, _⟩ := smooth_all
  have hor : lrHorizon smooth = .ok s.h := by rw [hh]; exact smooth_hor
  have far : ∀ (r : PropSt ℝ), SInv smooth s r → ∀ D, 160000 ≤ D → ∃ t, lrprop D r = .ok t ∧ SInv smooth s t := by
    intro r I D hD
    have e := arefOf_cont I D
    have e2 := runC_far I.cache (D := D) (by rw [hsa]; exact hD)
    rw [show inp smooth = smoothIn from rfl] at e e2
    rw [e2, hx] at e
    obtain ⟨t, ht, _⟩ := arefOf_ok e
    exact ⟨t, ht, (cont_inv I ht).1⟩
  obtain ⟨q1, h1⟩ := smooth_total 400000 (by norm_num)
  obtain ⟨s', hs', I1, _⟩ := first_inv (p := smooth) (by decide) h1
  have : s' = s := by
    rw [show setupC smooth.mdp (inp smooth) = setupC 1 smoothIn from rfl, hs, ok_inj] at hs'; exact hs'.symm
  subst this
  obtain ⟨q2, h2, I2⟩ := far q1 I1 200000 (by norm_num)
  obtain ⟨q3, h3, _⟩ := far q2 I2 300000 (by norm_num)
  have hq : sweep [400000, 200000, 300000] smooth = .ok q3 := by
    simp only [sweep, h1, h2, h3, ok_bind, pure_ok]
  refine ⟨q3, hq, C20_sweep_partial (by decide) hq hor 50000 (.inr (.inr ?_))⟩
  rw [hsa]
  intro d hd
  simp only [List.mem_cons, List.not_mem_nil, or_false] at hd
  rcases hd with rfl | rfl | rfl <;> norm_num

/-! ### C22 -/

section
variable {α : Type} [PyNum α]

/-- **C22** Any two sweeps from one preparation agree on every set-up coefficient, and on the line-of-sight and the
scatter coefficients whenever both have computed them: what triggered the computation does not matter. -/
theorem C22_trigger_independent {p q q' : PropSt α} {ds ds' : List α} (hm : 0 < p.mdp) (hn : ds ≠ []) (hn' : ds' ≠ [])
    (h : sweep ds p = .ok q) (h' : sweep ds' p = .ok q') :
    (q.hor = q'.hor ∧ q.diff = q'.diff ∧ q.line = q'.line) ∧ (q.wlos = true → q'.wlos = true → q.los = q'.los) ∧
      (q.wscat = true → q'.wscat = true → q.scat = q'.scat ∧ q.sprep = q'.sprep ∧ q.ascat1 = q'.ascat1) := by
  obtain ⟨s, hs, I, _⟩ := sweep_inv hm hn h
  obtain ⟨s', hs', I', _⟩ := sweep_inv hm hn' h'
  rw [hs, ok_inj] at hs'
  subst hs'
  refine ⟨⟨by rw [I.hor, I'.hor], by rw [I.diff, I'.diff], by rw [I.line, I'.line]⟩, ?_, ?_⟩
  · intro w w'
    obtain ⟨k, hk, e⟩ := I.cache.los w
    obtain ⟨k', hk', e'⟩ := I'.cache.los w'
    rw [hk, ok_inj] at hk'
    have e1 : q.los = some k := e
    have e2 : q'.los = some k' := e'
    rw [e1, e2, hk']
  · intro w w'
    obtain ⟨x, hx, e1, e2, e3⟩ := I.cache.scat w
    obtain ⟨x', hx', e1', e2', e3'⟩ := I'.cache.scat w'
    rw [hx, ok_inj] at hx'
    subst hx'
    exact ⟨e1.trans e1'.symm, e2.trans e2'.symm, e3.trans e3'.symm⟩

/-- **C22** Continuing a sweep changes no set-up coefficient and no coefficient already computed. -/
theorem C22_continuing_keeps {p q r : PropSt α} {ds es : List α} (hm : 0 < p.mdp) (hn : ds ≠ [])
    (h : sweep ds p = .ok q) (h' : sweep es q = .ok r) :
    (r.hor = q.hor ∧ r.diff = q.diff ∧ r.line = q.line) ∧ (q.wlos = true → r.wlos = true ∧ r.los = q.los) ∧
      (q.wscat = true → r.wscat = true ∧ r.scat = q.scat ∧ r.sprep = q.sprep ∧ r.ascat1 = q.ascat1) := by
  obtain ⟨s, hs, I, _⟩ := sweep_inv hm hn h
  obtain ⟨J, w, sc, _⟩ := sweep_cont I h'
  refine ⟨⟨by rw [I.hor, J.hor], by rw [I.diff, J.diff], by rw [I.line, J.line]⟩, ?_, ?_⟩
  · intro hw
    obtain ⟨k, hk, e⟩ := I.cache.los hw
    obtain ⟨k', hk', e'⟩ := J.cache.los (w hw)
    rw [hk, ok_inj] at hk'
    have e1 : q.los = some k := e
    have e2 : r.los = some k' := e'
    exact ⟨w hw, by rw [e1, e2, hk']⟩
  · intro hw
    obtain ⟨x, hx, e1, e2, e3⟩ := I.cache.scat hw
    obtain ⟨x', hx', e1', e2', e3'⟩ := J.cache.scat (sc hw)
    rw [hx, ok_inj] at hx'
    subst hx'
    exact ⟨sc hw, e1'.trans e1.symm, e2'.trans e2.symm, e3'.trans e3.symm⟩

/-- **C22** Every distance below the horizon triggers the line-of-sight coefficients, every other one (and every
nonpositive one) the scatter coefficients. -/
theorem C22_triggers {p q : PropSt α} {ds : List α} (hm : 0 < p.mdp) (h : sweep ds p = .ok q) {d : α} (hd : d ∈ ds) :
    ∃ hz, q.hor = some hz ∧ (d < hz.dlsa → q.wlos = true ∧ q.los.isSome) ∧
      (d ≤ 0.0 ∨ hz.dlsa ≤ d → q.wscat = true ∧ q.scat.isSome) := by
  have hn : ds ≠ [] := by rintro rfl; simp at hd
  obtain ⟨s, hs, I, w, u⟩ := sweep_inv hm hn h
  refine ⟨s.h, I.hor, fun hlt => ?_, fun hge => ?_⟩
  · have hw := w d hd hlt
    obtain ⟨k, _, e⟩ := I.cache.los hw
    have e1 : q.los = some k := e
    exact ⟨hw, by rw [e1]; rfl⟩
  · have hw := u d hd hge
    obtain ⟨k, _, e, _⟩ := I.cache.scat hw
    have e1 : q.scat = some k.2.2 := e
    exact ⟨hw, by rw [e1]; rfl⟩

end

/-- Two sweeps of the smooth link, the first triggering line of sight, the second scatter, agree on the set-up. -/
example : ∃ q q', sweep [50000] smooth = .ok q ∧ sweep [250000] smooth = .ok q' ∧ q.line = q'.line := by
  obtain ⟨q, h⟩ := smooth_total 50000 (by norm_num)
  obtain ⟨q', h'⟩ := smooth_total 250000 (by norm_num)
  have e : sweep [50000] smooth = .ok q := by simp only [sweep, h, ok_bind, pure_ok]
  have e' : sweep [250000] smooth = .ok q' := by simp only [sweep, h', ok_bind, pure_ok]
  exact ⟨q, q', e, e', (C22_trigger_independent (by decide) (by simp) (by simp) e e').1.2.2⟩

end Itm.Props
