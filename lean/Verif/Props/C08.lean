import Verif.Lemmas.AvarFrame
import Verif.Lemmas.AvarGood
import Verif.Lemmas.Demo
import Verif.Spec.Codes
import Mathlib.Tactic.IntervalCases

/-! C08: `avar` consumes `lvar` and repeats itself. C11: unused deviates are ignored.
C13, C14: decoding of the mode and of the climate. All for every arithmetic. -/

namespace Itm.Props
open Itm Itm.Spec
variable {α : Type} [PyNum α]

/-- **C08** An immediate second call returns the same number and the same dictionary. -/
theorem C08_avar_idempotent {p q : PropSt α} {a zt zl zc : α} (h : avar zt zl zc p = .ok (a, q)) :
    avar zt zl zc q = .ok (a, q) := by
  obtain ⟨r, m, c, v, ar, hr, hm, hc, hv, har, rfl, ha⟩ := avar_ok h
  have hl := (avarSetup_ok hr).2
  unfold avar avarSetup
  have h0 : ¬ 0 < ({ r with kwx := avarKwx m.kdv zt zl zc r.kwx } : PropSt α).lvar := by
    simp only [hl]; split_ifs <;> omega
  rw [if_neg h0]
  simp only [pure_bind', hm, hc, hv, har, need_some, ok_bind, ha, avarKwx_idem]
  rfl

/-- **C08** The call leaves `lvar = 0` (unchanged if it was not positive). -/
theorem C08_avar_consumes_lvar {p q : PropSt α} {a zt zl zc : α} (h : avar zt zl zc p = .ok (a, q)) :
    q.lvar = if 0 < p.lvar then 0 else p.lvar := by
  obtain ⟨r, m, c, v, ar, hr, _, _, _, _, rfl, _⟩ := avar_ok h
  exact (avarSetup_ok hr).2

/-- **C08** No input of the path calculation, no result of `lrprop` and no marker other than `lvar`, `kwx` and a
repaired climate code is touched. -/
theorem C08_avar_untouched {p q : PropSt α} {a zt zl zc : α} (h : avar zt zl zc p = .ok (a, q)) :
    q.aref = p.aref ∧ q.dist = p.dist ∧ q.he = p.he ∧ q.hg = p.hg ∧ q.pfl = p.pfl ∧ q.dl = p.dl ∧ q.the = p.the ∧
    q.dh = p.dh ∧ q.wn = p.wn ∧ q.mdp = p.mdp ∧ q.mdvar = p.mdvar ∧ q.hor = p.hor ∧ q.line = p.line ∧
    q.los = p.los ∧ q.scat = p.scat ∧ q.wlos = p.wlos ∧ q.wscat = p.wscat ∧ q.ens = p.ens ∧ q.gme = p.gme ∧
    q.zgnd = p.zgnd ∧ q.d = p.d ∧ q.fmhz = p.fmhz := by
  obtain ⟨r, m, c, v, ar, hr, _, _, _, _, rfl, _⟩ := avar_ok h
  obtain ⟨_, _, _, _, _, _, _, _, rfl⟩ := (avarSetup_ok hr).1
  exact ⟨rfl, rfl, rfl, rfl, rfl, rfl, rfl, rfl, rfl, rfl, rfl, rfl, rfl, rfl, rfl, rfl, rfl, rfl, rfl, rfl, rfl, rfl⟩

/-- The kind of variability a call will use: the stored one unless `mdvar` is about to be decoded. -/
def modeUsed (p : PropSt α) : Option Int :=
  if 3 < p.lvar then p.mdvar.map fun md => (decodeMode md).1.kdv else p.vmode.map (·.kdv)

theorem modeUsed_setup {p r : PropSt α} {m : VarMode} (hr : avarSetup p = .ok r) (hm : r.vmode = some m) :
    modeUsed p = some m.kdv := by
  unfold avarSetup at hr
  split_ifs at hr with h0
  · obtain ⟨p1, h1, hr⟩ := bind_eq_ok.1 hr
    obtain ⟨p2, h2, hr⟩ := bind_eq_ok.1 hr
    obtain ⟨p3, h3, hr⟩ := bind_eq_ok.1 hr
    obtain ⟨p4, h4, hr⟩ := bind_eq_ok.1 hr
    obtain ⟨g, rfl⟩ := avarFreq_ok h3
    obtain ⟨x, rfl⟩ := avarDexa_ok h4
    obtain ⟨v, rfl⟩ := avarDist_ok hr
    simp only at hm
    have c1 := avarClimate_ok h1
    have c2 := avarMode_ok h2
    have hp1 : p1.mdvar = p.mdvar ∧ p1.vmode = p.vmode ∧ p1.lvar = p.lvar := by
      by_cases h4 : 4 < p.lvar
      · obtain ⟨k, c, _, _, rfl⟩ := c1.2.2.1 h4; exact ⟨rfl, rfl, rfl⟩
      · rw [c1.2.2.2 h4]; exact ⟨rfl, rfl, rfl⟩
    unfold modeUsed
    by_cases h3l : 3 < p.lvar
    · obtain ⟨md, hmd, rfl⟩ := c2.2.2.2.2.1 (by rw [hp1.2.2]; exact h3l)
      rw [if_pos h3l, ← hp1.1, hmd]
      simp only [Option.some.injEq] at hm
      rw [← hm]; rfl
    · rw [if_neg h3l]
      have := c2.2.2.2.2.2 (by rw [hp1.2.2]; exact h3l)
      subst this
      rw [← hp1.2.1, hm]; rfl
  · rw [pure_ok, ok_inj] at hr; subst hr
    unfold modeUsed
    rw [if_neg (by omega), hm]; rfl

theorem avarQuantile_congr {kdv : Int} {zt zl zc zt' zl' zc' : α}
    (h : avarDeviates kdv zt zl zc = avarDeviates kdv zt' zl' zc') (zd : α) (v : VarC α) (ar : α) :
    avarQuantile kdv zd v ar zt zl zc = avarQuantile kdv zd v ar zt' zl' zc' := by
  unfold avarQuantile; rw [h]

theorem avarKwx_congr {kdv : Int} {zt zl zc zt' zl' zc' : α}
    (h : avarDeviates kdv zt zl zc = avarDeviates kdv zt' zl' zc') (k : Int) :
    avarKwx kdv zt zl zc k = avarKwx kdv zt' zl' zc' k := by
  unfold avarKwx; rw [h]

theorem avar_congr {p : PropSt α} {kdv : Int} (hk : modeUsed p = some kdv) {zt zl zc zt' zl' zc' : α}
    (h : avarDeviates kdv zt zl zc = avarDeviates kdv zt' zl' zc') : avar zt zl zc p = avar zt' zl' zc' p := by
  unfold avar
  cases hr : avarSetup p with
  | error e => rfl
  | ok r =>
    simp only [ok_bind]
    cases hm : r.vmode with
    | none => rfl
    | some m =>
      have := modeUsed_setup hr hm
      rw [hk] at this
      have hk' : kdv = m.kdv := by simpa using this
      subst hk'
      simp only [need_some, ok_bind, avarQuantile_congr h, avarKwx_congr h]

theorem decodeMode_valid {md m : ℤ} {a b : Bool} (h : ModeCode md m a b) :
    decodeMode md = ({ kdv := m, ws := b, wl := a }, false) := by
  obtain ⟨h0, h3, rfl⟩ := h
  unfold decodeMode
  cases a <;> cases b <;> interval_cases m <;> rfl

theorem decodeMode_invalid {md : ℤ} (h : ∀ m a b, ¬ ModeCode md m a b) :
    (decodeMode md).1.kdv = 0 ∧ (decodeMode md).2 = true := by
  have h00 := h md false false
  have h10 := h (md - 10) true false
  have h01 := h (md - 20) false true
  have h11 := h (md - 30) true true
  simp only [ModeCode, if_true, if_false, Bool.false_eq_true] at h00 h10 h01 h11
  unfold decodeMode
  by_cases h20 : 20 ≤ md
  · by_cases h30 : 10 ≤ md - 20
    · have : md - 20 - 10 < 0 ∨ 3 < md - 20 - 10 := by omega
      simp only [h20, h30, decide_true, if_true, this, and_self]
    · have : md - 20 < 0 ∨ 3 < md - 20 := by omega
      simp only [h20, h30, decide_true, decide_false, if_true, this, and_self, Bool.false_eq_true, if_false]
  · by_cases h30 : 10 ≤ md
    · have : md - 10 < 0 ∨ 3 < md - 10 := by omega
      simp only [h20, h30, decide_true, decide_false, if_true, this, and_self, Bool.false_eq_true, if_false]
    · have : md < 0 ∨ 3 < md := by omega
      simp only [h20, h30, decide_false, if_true, this, and_self, Bool.false_eq_true, if_false]

theorem modeUsed_of_inMode {p : PropSt α} {m : ℤ} (h : InMode p m) : modeUsed p = some m := by
  unfold modeUsed
  rcases h with ⟨hl, md, a, b, hmd, hc⟩ | ⟨hl, v, hv, rfl⟩
  · rw [if_pos hl, hmd, Option.map_some, decodeMode_valid hc]
  · rw [if_neg (by omega), hv]; rfl

/-- **C11** Single message mode: neither the time nor the location deviate matters, for answer, dictionary or exception. -/
theorem C11_single_message_ignores {p : PropSt α} (h : InMode p 0) (zt zl zt' zl' zc : α) :
    avar zt zl zc p = avar zt' zl' zc p :=
  avar_congr (modeUsed_of_inMode h) rfl

/-- **C11** Accidental mode: the location deviate does not matter. -/
theorem C11_accidental_ignores {p : PropSt α} (h : InMode p 1) (zt zl zl' zc : α) :
    avar zt zl zc p = avar zt zl' zc p :=
  avar_congr (modeUsed_of_inMode h) rfl

/-- **C11** Mobile mode: the location deviate does not matter. -/
theorem C11_mobile_ignores {p : PropSt α} (h : InMode p 2) (zt zl zl' zc : α) :
    avar zt zl zc p = avar zt zl' zc p :=
  avar_congr (modeUsed_of_inMode h) rfl

/-- The hypotheses are met by the point-to-point default `mdvar = 12` (mobile, location eliminated) … -/
example (p : PropSt α) : InMode { p with mdvar := some 12, lvar := 5 } 2 :=
  .inl ⟨by simp only; decide, 12, true, false, rfl, by decide, by decide, rfl⟩

/-- … and by a dictionary whose mode has been decoded earlier. -/
example (p : PropSt α) : InMode { p with mdvar := some 12, vmode := some ⟨1, false, true⟩, lvar := 2 } 1 :=
  .inr ⟨by simp only; decide, _, rfl, rfl⟩

/-- The mode and marker left behind by a call that decodes `mdvar`. -/
theorem avar_mode {p q : PropSt α} {x zt zl zc : α} (h : avar zt zl zc p = .ok (x, q)) (hl : 3 < p.lvar) :
    ∃ md, p.mdvar = some md ∧ q.vmode = some (decodeMode md).1 ∧
      ∃ k0, p.kwx ≤ k0 ∧ (p.lvar ≤ 4 ∨ (∃ k, p.klim = some k ∧ ClimateCode k) → k0 = p.kwx) ∧
      q.kwx = avarKwx (decodeMode md).1.kdv zt zl zc (if (decodeMode md).2 = true then max k0 2 else k0) := by
  obtain ⟨r, m, c, v, ar, hr, hm, _, _, _, rfl, _⟩ := avar_ok h
  unfold avarSetup at hr
  rw [if_pos (by omega)] at hr
  obtain ⟨p1, h1, hr⟩ := bind_eq_ok.1 hr
  obtain ⟨p2, h2, hr⟩ := bind_eq_ok.1 hr
  obtain ⟨p3, h3, hr⟩ := bind_eq_ok.1 hr
  obtain ⟨p4, h4, hr⟩ := bind_eq_ok.1 hr
  have c1 := avarClimate_ok h1
  obtain ⟨md, hmd, hp2⟩ := (avarMode_ok h2).2.2.2.2.1 (by rw [c1.2.1]; exact hl)
  have e1 : p2.vmode = some (decodeMode md).1 := by rw [hp2]
  have e2 : p2.kwx = if (decodeMode md).2 = true then max p1.kwx 2 else p1.kwx := by rw [hp2]
  have f1 : p1.mdvar = p.mdvar := by
    obtain ⟨_, _, _, _, _, _, _, _, hp1⟩ := c1.1
    rw [hp1]
  have f2 : p.kwx ≤ p1.kwx ∧ (p.lvar ≤ 4 ∨ (∃ k, p.klim = some k ∧ ClimateCode k) → p1.kwx = p.kwx) := by
    by_cases h4l : 4 < p.lvar
    · obtain ⟨k, cc, hk, _, hp1⟩ := c1.2.2.1 h4l
      have : p1.kwx = if k ≤ 0 ∨ 7 < k then max p.kwx 2 else p.kwx := by rw [hp1]
      rw [this]
      refine ⟨by split_ifs <;> omega, ?_⟩
      rintro (h' | ⟨k', hk', hc1, hc7⟩)
      · omega
      · rw [hk] at hk'
        have : k = k' := by simpa using hk'
        rw [if_neg (by omega)]
    · rw [c1.2.2.2 h4l]
      exact ⟨le_refl _, fun _ => rfl⟩
  obtain ⟨g, rfl⟩ := avarFreq_ok h3
  obtain ⟨y, rfl⟩ := avarDexa_ok h4
  obtain ⟨w, rfl⟩ := avarDist_ok hr
  simp only at hm
  rw [e1, Option.some.injEq] at hm
  refine ⟨md, f1 ▸ hmd, e1, p1.kwx, f2.1, f2.2, ?_⟩
  simp only [e2, hm]

/-- **C13** A documented code is decoded to its parts, and by itself leaves the warning marker alone. -/
theorem C13_valid_code {p q : PropSt α} {x zt zl zc : α} {md m : ℤ} {a b : Bool} (h : avar zt zl zc p = .ok (x, q))
    (hl : 3 < p.lvar) (hmd : p.mdvar = some md) (hc : ModeCode md m a b) :
    q.vmode = some { kdv := m, wl := a, ws := b } ∧
    ((p.lvar ≤ 4 ∨ ∃ k, p.klim = some k ∧ ClimateCode k) →
      ¬ 3.10 < PyNum.abs zt → ¬ 3.10 < PyNum.abs zl → ¬ 3.10 < PyNum.abs zc → q.kwx = p.kwx) := by
  obtain ⟨md', hmd', hv, k0, _, hk0, hk⟩ := avar_mode h hl
  have : md = md' := by rw [hmd] at hmd'; simpa using hmd'
  subst this
  rw [decodeMode_valid hc] at hv hk
  refine ⟨hv, fun hcl ht hll hzc => ?_⟩
  rw [hk, hk0 hcl]
  simp only [avarKwx, avarDeviates]
  split_ifs <;> simp_all

/-- **C13** Any other integer is treated as single message mode and reported: `kwx ≥ 2`. -/
theorem C13_invalid_code {p q : PropSt α} {x zt zl zc : α} {md : ℤ} (h : avar zt zl zc p = .ok (x, q))
    (hl : 3 < p.lvar) (hmd : p.mdvar = some md) (hc : ∀ m a b, ¬ ModeCode md m a b) :
    (∃ v, q.vmode = some v ∧ v.kdv = 0) ∧ 2 ≤ q.kwx := by
  obtain ⟨md', hmd', hv, k0, _, _, hk⟩ := avar_mode h hl
  have : md = md' := by rw [hmd] at hmd'; simpa using hmd'
  subst this
  obtain ⟨h0, h1⟩ := decodeMode_invalid hc
  refine ⟨⟨_, hv, h0⟩, ?_⟩
  rw [h1] at hk
  simp only [if_true] at hk
  have := (avarKwx_ge (decodeMode md).1.kdv zt zl zc (max k0 2)).1
  omega

/-- The codes are decoded unambiguously: no integer has two readings (so `C13_valid_code` is never in conflict). -/
example {md m m' : ℤ} {a b a' b' : Bool} (h : ModeCode md m a b) (h' : ModeCode md m' a' b') : m = m' ∧ a = a' ∧ b = b' := by
  have e := (decodeMode_valid h).symm.trans (decodeMode_valid h')
  simp only [Prod.mk.injEq, VarMode.mk.injEq, and_true] at e
  exact ⟨e.1, e.2.2, e.2.1⟩

example : ∀ m a b, ¬ ModeCode 34 m a b := by
  rintro m (_ | _) (_ | _) ⟨h0, h3, h⟩ <;> simp at h <;> omega
example : ∀ m a b, ¬ ModeCode (-1) m a b := by
  rintro m (_ | _) (_ | _) ⟨h0, h3, h⟩ <;> simp at h <;> omega
example : ModeCode 33 3 true true := ⟨by decide, by decide, rfl⟩

/-- Row `k` of the climate tables. -/
theorem climates_get {k : ℤ} (h : ClimateCode k) :
    ∃ c : Climate α, IsColumn (k - 1).toNat c ∧ pyGet climates (k - 1) = .ok c := by
  obtain ⟨h1, h7⟩ := h
  interval_cases k <;> refine ⟨_, ?_, rfl⟩ <;> exact Eq.refl _

/-- **C14** A documented climate is kept and selects its own row. -/
theorem C14_valid_climate {p q : PropSt α} {x zt zl zc : α} {k : ℤ} (h : avar zt zl zc p = .ok (x, q))
    (hl : 4 < p.lvar) (hk : p.klim = some k) (hc : ClimateCode k) :
    q.klim = some k ∧ ∃ c, q.clim = some c ∧ IsColumn (k - 1).toNat c := by
  obtain ⟨r, m, c, v, ar, hr, _, _, _, _, rfl, _⟩ := avar_ok h
  obtain ⟨k', c', md, hk', _, hg, h1, h2, _, _⟩ := avarSetup_all hr hl
  have : k = k' := by rw [hk] at hk'; simpa using hk'
  subst this
  have hf : fixKlim k = k := by unfold fixKlim; rw [if_neg (by obtain ⟨_, _⟩ := hc; omega)]
  rw [hf] at hg h1
  obtain ⟨c2, hc2, hg2⟩ := climates_get (α := α) hc
  rw [hg2, ok_inj] at hg
  subst hg
  exact ⟨h1, c2, h2, hc2⟩

/-- **C14** Any other integer becomes continental temperate (5), and is reported: `kwx ≥ 2`. -/
theorem C14_invalid_climate {p q : PropSt α} {x zt zl zc : α} {k : ℤ} (h : avar zt zl zc p = .ok (x, q))
    (hl : 4 < p.lvar) (hk : p.klim = some k) (hc : ¬ ClimateCode k) :
    q.klim = some 5 ∧ (∃ c, q.clim = some c ∧ IsColumn 4 c) ∧ 2 ≤ q.kwx := by
  obtain ⟨r, m, c, v, ar, hr, _, _, _, _, rfl, _⟩ := avar_ok h
  obtain ⟨k', c', md, hk', _, hg, h1, h2, _, h4⟩ := avarSetup_all hr hl
  have : k = k' := by rw [hk] at hk'; simpa using hk'
  subst this
  have hb : k ≤ 0 ∨ 7 < k := by unfold ClimateCode at hc; omega
  have hf : fixKlim k = 5 := by unfold fixKlim; rw [if_pos hb]
  rw [hf] at hg h1
  have hg' : (Except.ok _ : Py (Climate α)) = .ok c' := hg
  rw [ok_inj] at hg'
  refine ⟨h1, ⟨c', h2, by rw [← hg']; rfl⟩, ?_⟩
  rw [if_pos (.inl hb)] at h4
  have := (avarKwx_ge m.kdv zt zl zc r.kwx).1
  simp only
  omega

/-- **C14** No integer makes the table lookup fail: the climate stage succeeds on every dictionary with a climate. -/
theorem C14_lookup_total (p : PropSt α) (k : ℤ) (hk : p.klim = some k) : ∃ q, avarClimate p = .ok q := by
  unfold avarClimate
  split_ifs with hl
  · rw [hk, need_some, ok_bind]
    by_cases hb : k ≤ 0 ∨ 7 < k
    · simp only [hb, if_true, need_some, ok_bind]
      obtain ⟨c, _, hc⟩ := climates_get (α := α) (k := 5) ⟨by decide, by decide⟩
      rw [hc]; exact ⟨_, rfl⟩
    · simp only [hb, if_false, hk, need_some, ok_bind]
      obtain ⟨c, _, hc⟩ := climates_get (α := α) (k := k) ⟨by omega, by omega⟩
      rw [hc]; exact ⟨_, rfl⟩
  · exact ⟨_, rfl⟩

/-- The hypotheses of C08, C13 and C14 are met by `demo` with any mode and any climate. -/
theorem demo_called (md k : ℤ) (zt zl zc : ℝ) : ∃ a q, avar zt zl zc { demo with mdvar := some md, klim := some k } = .ok (a, q) :=
  avar_total (p := { demo with mdvar := some md, klim := some k }) (cacheInv_of_five (le_refl _)) rfl rfl rfl
    (by norm_num [demo]) (by norm_num [demo]) (by norm_num [demo]) (by norm_num [demo]) (by norm_num [demo]) zt zl zc

/-- A second call. -/
example : ∃ a q, avar 1 0 (-1) demo = .ok (a, q) ∧ avar 1 0 (-1) q = .ok (a, q) ∧ q.lvar = 0 := by
  obtain ⟨a, q, h⟩ := demo_called 12 5 1 0 (-1)
  exact ⟨a, q, h, C08_avar_idempotent h, C08_avar_consumes_lvar h⟩

/-- Mode 33 (broadcast, nothing varied) in climate 7; mode 34 in climate 0. -/
example : ∃ a q, avar 1 0 (-1) { demo with mdvar := some 33, klim := some 7 } = .ok (a, q) ∧
    q.vmode = some { kdv := 3, wl := true, ws := true } ∧ q.klim = some 7 ∧ ∃ c, q.clim = some c ∧ IsColumn 6 c := by
  obtain ⟨a, q, h⟩ := demo_called 33 7 1 0 (-1)
  exact ⟨a, q, h, (C13_valid_code h (by decide) rfl ⟨by decide, by decide, rfl⟩).1, C14_valid_climate h (by decide) rfl ⟨by decide, by decide⟩⟩

example : ∃ a q, avar 1 0 (-1) { demo with mdvar := some 34, klim := some 0 } = .ok (a, q) ∧
    (∃ v, q.vmode = some v ∧ v.kdv = 0) ∧ q.klim = some 5 ∧ 2 ≤ q.kwx := by
  obtain ⟨a, q, h⟩ := demo_called 34 0 1 0 (-1)
  refine ⟨a, q, h, (C13_invalid_code h (by decide) rfl ?_).1, ?_⟩
  · rintro m (_ | _) (_ | _) ⟨h0, h3, h⟩ <;> simp at h <;> omega
  · have := C14_invalid_climate h (by decide) rfl (by rintro ⟨h1, -⟩; omega)
    exact ⟨this.1, this.2.2⟩

end Itm.Props
