import Verif.Model.Stats
import Verif.Lemmas.Basic

/-! Cache discipline of `avar`, for every arithmetic. -/

namespace Itm
variable {α : Type} [PyNum α]

/-- The climate code after the repair of `avar.py` 67-69. -/
def fixKlim (k : Int) : Int := if k ≤ 0 ∨ 7 < k then 5 else k

theorem fixKlim_range (k : Int) : 1 ≤ fixKlim k ∧ fixKlim k ≤ 7 := by
  unfold fixKlim; split_ifs <;> omega

theorem fixKlim_idem (k : Int) : fixKlim (fixKlim k) = fixKlim k := by
  unfold fixKlim; split_ifs <;> omega

/-- `avar` without caches: the answer as a function of the parameters alone. -/
def freshAns (zt zl zc : α) (p : PropSt α) : Py α := do
  let klim ← need p.klim "klim"
  let c ← pyGet climates (fixKlim klim - 1)
  let mdvar ← need p.mdvar "mdvar"
  let m := (decodeMode mdvar).1
  let g ← freqGain c p.wn
  let x ← dexaOf p.he p.wn
  let v ← varCoef c m g x p.dist p.dh p.wn
  let aref ← need p.aref "aref"
  avarQuantile m.kdv c.zd v aref zt zl zc

/-- The cache invariant: every group of cached keys whose level `lvar` does not mark as stale equals its
recomputation from the current parameters. -/
structure CacheInv (p : PropSt α) : Prop where
  clim : p.lvar ≤ 4 → ∃ k c, p.klim = some k ∧ fixKlim k = k ∧ pyGet climates (k - 1) = .ok c ∧ p.clim = some c
  mode : p.lvar ≤ 3 → ∃ m, p.mdvar = some m ∧ p.vmode = some (decodeMode m).1
  freq : p.lvar ≤ 2 → ∃ c g, p.clim = some c ∧ freqGain c p.wn = .ok g ∧ p.fgain = some g
  dexa : p.lvar ≤ 1 → ∃ x, dexaOf p.he p.wn = .ok x ∧ p.dexa = some x
  varc : p.lvar ≤ 0 → ∃ c m g x v, p.clim = some c ∧ p.vmode = some m ∧ p.fgain = some g ∧ p.dexa = some x ∧
    varCoef c m g x p.dist p.dh p.wn = .ok v ∧ p.varc = some v

theorem cacheInv_of_five {p : PropSt α} (h : 5 ≤ p.lvar) : CacheInv p := by
  constructor <;> intro h' <;> omega

/-- Raising `lvar` keeps the invariant. -/
theorem CacheInv.raise {p : PropSt α} (h : CacheInv p) {n : Int} (hn : p.lvar ≤ n) :
    CacheInv { p with lvar := n } := by
  constructor <;> intro h' <;> simp only at h'
  · exact h.clim (by omega)
  · exact h.mode (by omega)
  · exact h.freq (by omega)
  · exact h.dexa (by omega)
  · exact h.varc (by omega)

theorem need_some {β : Type} (b : β) (k : String) : need (some b) k = .ok b := rfl
theorem need_none {β : Type} (k : String) : need (none : Option β) k = .error (.keyError k) := rfl

/-- Bring the caches up to date without using them: `avarSetup` with every level recomputed. -/
def freshSetup (p : PropSt α) : Py (Climate α × VarMode × FreqGain α × α × VarC α) := do
  let klim ← need p.klim "klim"
  let c ← pyGet climates (fixKlim klim - 1)
  let mdvar ← need p.mdvar "mdvar"
  let m := (decodeMode mdvar).1
  let g ← freqGain c p.wn
  let x ← dexaOf p.he p.wn
  let v ← varCoef c m g x p.dist p.dh p.wn
  pure (c, m, g, x, v)

theorem freshAns_eq (zt zl zc : α) (p : PropSt α) :
    freshAns zt zl zc p = (do
      let (c, m, _, _, v) ← freshSetup p
      let aref ← need p.aref "aref"
      avarQuantile m.kdv c.zd v aref zt zl zc) := by
  simp only [freshAns, freshSetup, bind_assoc, pure_bind]

/-- What `avarSetup` does, given the invariant: it fails exactly as the fresh computation fails, and on success
the caches are the freshly computed groups; the parameters are untouched except for the climate repair. -/
theorem avarSetup_spec {p : PropSt α} (h : CacheInv p) :
    ∃ kw : Int, ∃ lv : Int, (p.kwx ≤ kw ∧ (kw = p.kwx ∨ kw = max p.kwx 2)) ∧ (lv ≤ 0 ∧ (lv = 0 ∨ lv = p.lvar)) ∧
      avarSetup p = (do
        let (c, m, g, x, v) ← freshSetup p
        pure { p with klim := p.klim.map fixKlim, kwx := kw, lvar := lv, clim := some c, vmode := some m,
                      fgain := some g, dexa := some x, varc := some v }) := by
  by_cases h0 : p.lvar ≤ 0
  · obtain ⟨c, m, g, x, v, hc, hm, hg, hx, hv, hvc⟩ := h.varc h0
    obtain ⟨k, c', hk, hkf, hkc, hc'⟩ := h.clim (by omega)
    obtain ⟨md, hmd, hm'⟩ := h.mode (by omega)
    obtain ⟨c'', g', hc'', hg', hgg⟩ := h.freq (by omega)
    obtain ⟨x', hx', hxx⟩ := h.dexa (by omega)
    rw [hc] at hc' hc''
    rw [hm] at hm'; rw [hg] at hgg; rw [hx] at hxx
    obtain rfl := Option.some.inj hc'
    obtain rfl := Option.some.inj hc''
    obtain rfl := Option.some.inj hm'
    obtain rfl := Option.some.inj hgg
    obtain rfl := Option.some.inj hxx
    refine ⟨p.kwx, p.lvar, ⟨le_refl _, Or.inl rfl⟩, ⟨h0, Or.inr rfl⟩, ?_⟩
    have hn : ¬ 0 < p.lvar := by omega
    simp only [avarSetup, hn, if_false, freshSetup, hk, hmd, need_some, ok_bind, hkf, hkc, hg', hx', hv, pure_ok,
      Option.map_some]
    congr 1
    cases p
    simp only at *
    subst hk hmd hc hm hg hx hvc
    rfl
  · have hpos : 0 < p.lvar := by omega
    -- the warning raised by the climate stage and by the mode stage
    obtain ⟨kw, hkw, hmain⟩ : ∃ kw : Int, (p.kwx ≤ kw ∧ (kw = p.kwx ∨ kw = max p.kwx 2)) ∧
        (do let p ← avarClimate p; avarMode p) = (do
          let klim ← need p.klim "klim"
          let c ← pyGet climates (fixKlim klim - 1)
          let mdvar ← need p.mdvar "mdvar"
          pure { p with klim := some (fixKlim klim), kwx := kw, clim := some c,
                        vmode := some (decodeMode mdvar).1 }) := by
      by_cases h4 : 4 < p.lvar
      · have h3 : 3 < p.lvar := by omega
        cases hk : p.klim with
        | none =>
          refine ⟨p.kwx, ⟨le_refl _, Or.inl rfl⟩, ?_⟩
          simp only [avarClimate, h4, if_true, hk, need_none, err_bind]
        | some k =>
          cases hm : p.mdvar with
          | none =>
            refine ⟨p.kwx, ⟨le_refl _, Or.inl rfl⟩, ?_⟩
            by_cases hb : k ≤ 0 ∨ 7 < k
            · simp only [avarClimate, h4, if_true, hk, need_some, ok_bind, hb, fixKlim]
              cases hcl : pyGet (climates : List (Climate α)) (5 - 1) with
              | error e => simp only [err_bind]
              | ok c => simp only [ok_bind, pure_ok, avarMode, h3, if_true, hm, need_none, err_bind]
            · simp only [avarClimate, h4, if_true, hk, need_some, ok_bind, hb, if_false, fixKlim]
              cases hcl : pyGet (climates : List (Climate α)) (k - 1) with
              | error e => simp only [err_bind]
              | ok c => simp only [ok_bind, pure_ok, avarMode, h3, if_true, hm, need_none, err_bind]
          | some md =>
            refine ⟨if (k ≤ 0 ∨ 7 < k) ∨ (decodeMode md).2 = true then max p.kwx 2 else p.kwx, ?_, ?_⟩
            · split_ifs <;> constructor <;> omega
            · by_cases hb : k ≤ 0 ∨ 7 < k
              · simp only [avarClimate, h4, if_true, hk, need_some, ok_bind, hb, fixKlim, true_or]
                cases hcl : pyGet (climates : List (Climate α)) (5 - 1) with
                | error e => simp only [err_bind]
                | ok c =>
                  simp only [ok_bind, pure_ok, avarMode, h3, if_true, hm, need_some]
                  have : max (max p.kwx 2) 2 = max p.kwx 2 := by omega
                  simp only [this, ite_self]
              · simp only [avarClimate, h4, if_true, hk, need_some, ok_bind, hb, if_false, fixKlim, false_or]
                cases hcl : pyGet (climates : List (Climate α)) (k - 1) with
                | error e => simp only [err_bind]
                | ok c =>
                  simp only [ok_bind, pure_ok, avarMode, h3, if_true, hm, need_some]
      · obtain ⟨k, c, hk, hkf, hkc, hc⟩ := h.clim (by omega)
        by_cases h3 : 3 < p.lvar
        · cases hm : p.mdvar with
          | none =>
            refine ⟨p.kwx, ⟨le_refl _, Or.inl rfl⟩, ?_⟩
            simp only [avarClimate, h4, if_false, pure_bind', avarMode, h3, if_true, hm, need_none, err_bind, hk,
              need_some, ok_bind, hkf, hkc]
          | some md =>
            refine ⟨if (decodeMode md).2 = true then max p.kwx 2 else p.kwx, ?_, ?_⟩
            · split_ifs <;> constructor <;> omega
            · simp only [avarClimate, h4, if_false, pure_bind', avarMode, h3, if_true, hm, hk, need_some, ok_bind,
                hkf, hkc, pure_ok]
              congr 1
              cases p; simp only at *; subst hk hc; rfl
        · obtain ⟨md, hmd, hm⟩ := h.mode (by omega)
          refine ⟨p.kwx, ⟨le_refl _, Or.inl rfl⟩, ?_⟩
          simp only [avarClimate, h4, if_false, pure_bind', avarMode, h3, hk, need_some, ok_bind, hkf, hkc, hmd,
            pure_ok]
          congr 1
          cases p; simp only at *; subst hk hc hmd hm; rfl
    refine ⟨kw, 0, hkw, ⟨le_refl _, Or.inl rfl⟩, ?_⟩
    have hassoc : avarSetup p = (do
        let p ← (do let p ← avarClimate p; avarMode p)
        let p ← avarFreq p
        let p ← avarDexa p
        avarDist p) := by
      simp only [avarSetup, hpos, if_true, bind_assoc]
    rw [hassoc, hmain]
    simp only [freshSetup, bind_assoc, pure_bind]
    cases hk : p.klim with
    | none => simp only [need_none, err_bind]
    | some k =>
      simp only [need_some, ok_bind, Option.map_some]
      cases hcl : pyGet (climates : List (Climate α)) (fixKlim k - 1) with
      | error e => simp only [err_bind]
      | ok c =>
        simp only [ok_bind]
        cases hm : p.mdvar with
        | none => simp only [need_none, err_bind]
        | some md =>
          simp only [need_some, ok_bind]
          -- frequency gains
          have hfreq : avarFreq { p with klim := some (fixKlim k), kwx := kw, clim := some c, vmode := some (decodeMode md).1 } = (do
              let g ← freqGain c p.wn
              pure { p with klim := some (fixKlim k), kwx := kw, clim := some c,
                            vmode := some (decodeMode md).1, fgain := some g }) := by
            by_cases h2 : 2 < p.lvar
            · simp only [avarFreq, h2, if_true, need_some, ok_bind]
            · obtain ⟨k', c', hk', hkf', hkc', hc'⟩ := h.clim (by omega)
              obtain ⟨c'', g, hc'', hg, hgg⟩ := h.freq (by omega)
              rw [hk] at hk'; obtain rfl := Option.some.inj hk'
              rw [hkf', hkc'] at hcl
              obtain rfl := ok_inj.1 hcl
              rw [hc'] at hc''; obtain rfl := Option.some.inj hc''
              simp only [avarFreq, h2, if_false, hg, ok_bind, pure_ok]
              congr 1
              cases p; simp only at *; subst hgg; rfl
          simp only [hm] at hfreq
          rw [hfreq]
          cases hg : freqGain c p.wn with
          | error e => simp only [err_bind]
          | ok g =>
            simp only [ok_bind, pure_bind']
            have hdexa : avarDexa { p with klim := some (fixKlim k), kwx := kw, clim := some c, mdvar := some md, vmode := some (decodeMode md).1, fgain := some g } = (do
                let x ← dexaOf p.he p.wn
                pure { p with klim := some (fixKlim k), kwx := kw, clim := some c,
                              mdvar := some md, vmode := some (decodeMode md).1, fgain := some g, dexa := some x }) := by
              by_cases h1 : 1 < p.lvar
              · simp only [avarDexa, h1, if_true]
              · obtain ⟨x, hx, hxx⟩ := h.dexa (by omega)
                simp only [avarDexa, h1, if_false, hx, ok_bind, pure_ok]
                congr 1
                cases p; simp only at *; subst hxx; rfl
            rw [hdexa]
            cases hx : dexaOf p.he p.wn with
            | error e => simp only [err_bind]
            | ok x => simp only [ok_bind, pure_bind', avarDist, need_some]

end Itm

namespace Itm
variable {α : Type} [PyNum α]

/-- Under the cache invariant `avar` answers as if it had no caches. -/
theorem avar_value {p : PropSt α} (h : CacheInv p) (zt zl zc : α) :
    (Prod.fst <$> avar zt zl zc p : Py α) = freshAns zt zl zc p := by
  obtain ⟨kw, lv, _, _, he⟩ := avarSetup_spec h
  rw [freshAns_eq]
  unfold avar
  rw [he]
  cases hf : freshSetup p with
  | error e => rfl
  | ok x =>
    obtain ⟨c, m, g, x, v⟩ := x
    simp only [ok_bind, pure_bind', need_some]
    cases p.aref with
    | none => rfl
    | some a =>
      simp only [need_some, ok_bind]
      cases avarQuantile m.kdv c.zd v a zt zl zc <;> rfl

/-- The dictionary after a successful `avar` call, and the invariant again. -/
theorem avar_state {p q : PropSt α} {a zt zl zc : α} (h : CacheInv p) (hq : avar zt zl zc p = .ok (a, q)) :
    CacheInv q ∧ ∃ c m g x v kw lv, freshSetup p = .ok (c, m, g, x, v) ∧ lv ≤ 0 ∧
      q = { p with klim := p.klim.map fixKlim, kwx := kw, lvar := lv, clim := some c, vmode := some m,
                   fgain := some g, dexa := some x, varc := some v } := by
  obtain ⟨kw, lv, _, hlv, he⟩ := avarSetup_spec h
  unfold avar at hq
  rw [he] at hq
  cases hf : freshSetup p with
  | error e => rw [hf] at hq; exact absurd hq (by simp [err_bind])
  | ok x =>
    obtain ⟨c, m, g, x, v⟩ := x
    rw [hf] at hq
    simp only [ok_bind, pure_bind', need_some] at hq
    obtain ⟨ar, _, hq⟩ := bind_eq_ok.1 hq
    obtain ⟨b, _, hq⟩ := bind_eq_ok.1 hq
    rw [pure_ok, ok_inj] at hq
    obtain ⟨_, rfl⟩ := Prod.mk.inj hq
    refine ⟨?_, c, m, g, x, v, _, lv, rfl, hlv.1, rfl⟩
    unfold freshSetup at hf
    obtain ⟨k, hk, hf⟩ := bind_eq_ok.1 hf
    obtain ⟨c', hc, hf⟩ := bind_eq_ok.1 hf
    obtain ⟨md, hmd, hf⟩ := bind_eq_ok.1 hf
    obtain ⟨g', hg, hf⟩ := bind_eq_ok.1 hf
    obtain ⟨x', hx, hf⟩ := bind_eq_ok.1 hf
    obtain ⟨v', hv, hf⟩ := bind_eq_ok.1 hf
    rw [pure_ok, ok_inj] at hf
    simp only [Prod.mk.injEq] at hf
    obtain ⟨e1, e2, e3, e4, e5⟩ := hf
    subst e1 e2 e3 e4 e5
    rw [need_eq_ok] at hk hmd
    constructor
    · intro _
      exact ⟨fixKlim k, c', by simp only [hk, Option.map_some], fixKlim_idem k, hc, rfl⟩
    · intro _; exact ⟨md, hmd, rfl⟩
    · intro _; exact ⟨c', g', rfl, hg, rfl⟩
    · intro _; exact ⟨x', hx, rfl⟩
    · intro _; exact ⟨c', _, g', x', v', rfl, rfl, rfl, rfl, hv, rfl⟩

end Itm
