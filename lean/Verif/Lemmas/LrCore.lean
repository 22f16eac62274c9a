import Verif.Model.Prep
import Verif.Lemmas.Basic

/-! `lrprop` as a function of explicit inputs: each stage reads only the listed inputs and writes only
its own keys. Holds for every arithmetic. -/

namespace Itm
variable {α : Type} [PyNum α]

/-- The parameters `lrprop` reads (besides `mdp`, `dist` and its own cached keys). -/
structure LrIn (α : Type) where
  hg : Pair α
  he : Pair α
  dl : Pair α
  the : Pair α
  wn : α
  dh : α
  ens : α
  gme : α
  zgnd : Cx α

/-- The `lrprop` parameters stored in a dictionary. -/
def inp (p : PropSt α) : LrIn α :=
  { hg := p.hg, he := p.he, dl := p.dl, the := p.the, wn := p.wn, dh := p.dh, ens := p.ens, gme := p.gme,
    zgnd := p.zgnd }

/-- A dictionary holding the given parameters and nothing else. -/
def blank (mdp : Int) (i : LrIn α) : PropSt α :=
  { fmhz := 0.0, d := 0.0, ipol := 0, hg := i.hg, eps := 0.0, sgm := 0.0, ens0 := 0.0, gma := 0.0, wn := i.wn,
    dh := i.dh, ens := i.ens, gme := i.gme, zgnd := i.zgnd, klimx := 0, mdvarx := 0,
    pfl := { np := 0, xi := 0.0, z := [] }, he := i.he, dl := i.dl, the := i.the, dist := 0.0, mdp := mdp,
    kwx := 0, lvar := 0, mdvar := none, klim := none, hor := none, diff := none, line := none, wlos := false,
    wscat := false, ascat1 := 0.0, los := none, sprep := none, scat := none, aref := none, clim := none,
    vmode := none, fgain := none, dexa := none, varc := none }

theorem inp_blank (mdp : Int) (i : LrIn α) : inp (blank mdp i) = i := rfl

/-- Horizon distances from the inputs. -/
def horC (i : LrIn α) : Py (Horizon α) := lrHorizon (blank 0 i)

theorem lrHorizon_eq (p : PropSt α) : lrHorizon p = horC (inp p) := rfl

/-- The diffraction constants from the inputs. -/
def diffC (mdp : Int) (i : LrIn α) (h : Horizon α) : Py (DiffC α) := do
  let (_, q) ← adiffInit { blank mdp i with hor := some h }
  need q.diff "qk"

theorem adiffInit_eq {p : PropSt α} {h : Horizon α} (hh : p.hor = some h) :
    adiffInit p = (do let c ← diffC p.mdp (inp p) h; pure (0.0, { p with diff := some c })) := by
  unfold diffC adiffInit
  simp only [hh, need, bind_assoc, pure_bind, ok_bind]
  rfl

/-- `adiff` as a function. -/
def adiffC (mdp : Int) (i : LrIn α) (h : Horizon α) (c : DiffC α) (d : α) : Py α := do
  let (a, _) ← adiff d { blank mdp i with hor := some h, diff := some c }
  pure a

theorem adiff_eq {p : PropSt α} {h : Horizon α} {c : DiffC α} (hh : p.hor = some h) (hc : p.diff = some c) (d : α) :
    (do let (a, _) ← adiff d p; pure a) = adiffC p.mdp (inp p) h c d := by
  unfold adiffC adiff
  split_ifs
  · rw [adiffInit_eq hh, adiffInit_eq (p := { blank p.mdp (inp p) with hor := some h, diff := some c }) rfl]
    simp only [bind_assoc, pure_bind]
    rfl
  · unfold adiffParts adiffWeight
    simp only [hh, hc, need, bind_assoc, pure_bind, ok_bind]
    rfl

/-- `lrLine` with `adiff` as a parameter. -/
def lrLineWith (A : α → Py α) (he : Pair α) (wn gme dh : α) (h : Horizon α) : Py (DiffLine α) := do
  let dmin := PyNum.abs (he.x0 - he.x1) / 0.2
  let xae ← pyPow (wn * npow gme 2) (-third)
  let d3 := pyMax h.dlsa (1.3787 * xae + h.dla)
  let d4 := d3 + 2.7574 * xae
  let a3 ← A d3
  let a4 ← A d4
  let emd ← (a4 - a3) /! (d4 - d3)
  let aed := a3 - emd * d3
  let wis ← (0.021 : α) /! (0.021 + wn * dh / pyMax 10e3 h.dlsa)
  pure { dmin, xae, emd, aed, wis }

/-- The diffraction line from the inputs. -/
def lineC (mdp : Int) (i : LrIn α) (h : Horizon α) (c : DiffC α) : Py (DiffLine α) :=
  lrLineWith (adiffC mdp i h c) i.he i.wn i.gme i.dh h

theorem lrLine_eq {p : PropSt α} {h : Horizon α} {c : DiffC α} (hh : p.hor = some h) (hc : p.diff = some c) :
    lrLine p h = lineC p.mdp (inp p) h c := by
  have e : adiffC p.mdp (inp p) h c = fun d => (do let (a, _) ← adiff d p; pure a) := by
    funext d; exact (adiff_eq hh hc d).symm
  unfold lineC lrLine
  rw [e]
  unfold lrLineWith
  simp only [bind_assoc, pure_bind]
  rfl

/-- Everything the set-up computes. -/
structure Setup (α : Type) where
  h : Horizon α
  c : DiffC α
  l : DiffLine α

/-- The set-up computation from the inputs. -/
def setupC (mdp : Int) (i : LrIn α) : Py (Setup α) := do
  let h ← horC i
  let c ← diffC mdp i h
  let l ← lineC mdp i h c
  pure ⟨h, c, l⟩

/-- The dictionary after the set-up. -/
def withSetup (p : PropSt α) (s : Setup α) : PropSt α :=
  { p with hor := some s.h, diff := some s.c, line := some s.l, wlos := false, wscat := false, ascat1 := 0.0,
           kwx := lrKwx p s.h }

theorem lrInit_eq (p : PropSt α) :
    lrInit p = (do let s ← setupC p.mdp (inp p); pure (withSetup p s)) := by
  unfold lrInit setupC
  simp only [lrHorizon_eq, bind_assoc, pure_bind]
  congr 1
  funext h
  have e1 := adiffInit_eq (p := { p with hor := some h, wlos := false, wscat := false, kwx := lrKwx p h }) (h := h) rfl
  rw [e1]
  simp only [bind_assoc, pure_bind]
  have e0 : inp { p with hor := some h, wlos := false, wscat := false, kwx := lrKwx p h } = inp p := rfl
  rw [e0]
  congr 1
  funext c
  have e2 := lrLine_eq (p := { p with hor := some h, wlos := false, wscat := false, kwx := lrKwx p h, diff := some c }) (h := h) (c := c) rfl rfl
  rw [e2]
  rfl

/-- The line-of-sight coefficients from the inputs. -/
def losC (i : LrIn α) (h : Horizon α) (l : DiffLine α) : Py (LosC α) :=
  losCoef { blank 0 i with line := some l } h l

theorem losCoef_eq {p : PropSt α} {l : DiffLine α} (hl : p.line = some l) (h : Horizon α) :
    losCoef p h l = losC (inp p) h l := by
  unfold losC losCoef alos alosExt
  simp only [hl, need]
  rfl

/-- `ascat` as a function: `(ascat1, sprep)`. -/
def ascatC (i : LrIn α) (h : Horizon α) (s : ScatPrep α) (a1 d : α) : Py (α × ScatPrep α) :=
  if 15.0 < s.h0s then do
    let a ← ascatFinal d s.h0s { blank 0 i with hor := some h }
    pure (a, s)
  else do
    let h0 ← ascatH0 d (blank 0 i) s
    let a ← ascatFinal d h0 { blank 0 i with hor := some h }
    pure (a, if ¬ pyEq (if (ascatR d (blank 0 i)).2.1 < 0.2 ∧ (ascatR d (blank 0 i)).2.2 < 0.2 then 1001.0 else a1) 1001.0
      then { s with h0s := h0 } else s)

theorem ascat_eq {p : PropSt α} {h : Horizon α} {s : ScatPrep α} (hh : p.hor = some h) (hs : p.sprep = some s) (d : α) :
    ascat d p = (do
      let (a, s') ← ascatC (inp p) h s p.ascat1 d
      pure { p with ascat1 := a, sprep := some s' }) := by
  unfold ascatC ascat
  rw [show ascatR d (blank 0 (inp p)) = ascatR d p from rfl]
  obtain ⟨⟩ := p
  simp only at hh hs
  subst hh hs
  simp only [need, ok_bind]
  by_cases h1 : 15.0 < s.h0s
  · rw [if_pos h1, if_pos h1]
    simp only [pure_bind, bind_assoc]
    rfl
  · rw [if_neg h1, if_neg h1]
    simp only [bind_assoc, pure_bind]
    refine congrArg₂ bind ?_ (funext fun h0 => ?_)
    · split_ifs <;> rfl
    · split_ifs <;> (simp only [pure_bind]; rfl)

/-- What the scatter set-up computes: `(ascat1, sprep, scat)`. -/
def scatC (i : LrIn α) (h : Horizon α) (l : DiffLine α) (a1 : α) : Py (α × ScatPrep α × ScatC α) := do
  let s ← scatPrep (blank 0 i)
  let d5 := h.dla + 200e3
  let d6 := d5 + 200e3
  let (a6, s) ← ascatC i h s a1 d6
  let (a5, s) ← ascatC i h s a6 d5
  let c ← scatCoef (blank 0 i) h l d5 a5 a6
  pure (a5, s, c)

theorem lrScatSetup_eq {p : PropSt α} {h : Horizon α} (hh : p.hor = some h) (hw : p.wscat = false) (l : DiffLine α) :
    lrScatSetup p h l = (do
      let (a, s, c) ← scatC (inp p) h l p.ascat1
      pure { p with ascat1 := a, sprep := some s, scat := some c, wscat := true }) := by
  unfold lrScatSetup scatC
  simp only [hw, if_true, bind_assoc]
  have e1 : scatPrep p = scatPrep (blank 0 (inp p)) := rfl
  rw [e1]
  congr 1
  funext s
  have e2 := ascat_eq (p := { p with sprep := some s, wscat := false }) (h := h) (s := s) hh rfl (h.dla + 200e3 + 200e3)
  rw [e2]
  simp only [bind_assoc, pure_bind]
  congr 1
  funext x
  have e3 := ascat_eq (p := { p with sprep := some x.2, wscat := false, ascat1 := x.1 }) (h := h) (s := x.2) hh rfl
    (h.dla + 200e3)
  rw [e3]
  simp only [bind_assoc, pure_bind]
  rfl

end Itm

namespace Itm
variable {α : Type} [PyNum α]

/-- The lazily computed keys of `lrprop`. -/
structure LrCache (α : Type) where
  wlos : Bool
  los : Option (LosC α)
  wscat : Bool
  ascat1 : α
  sprep : Option (ScatPrep α)
  scat : Option (ScatC α)
  aref : Option α

/-- The lazily computed keys stored in a dictionary. -/
def cacheOf (p : PropSt α) : LrCache α :=
  { wlos := p.wlos, los := p.los, wscat := p.wscat, ascat1 := p.ascat1, sprep := p.sprep, scat := p.scat,
    aref := p.aref }

/-- Overwrite the lazily computed keys. -/
def setCache (p : PropSt α) (c : LrCache α) : PropSt α :=
  { p with wlos := c.wlos, los := c.los, wscat := c.wscat, ascat1 := c.ascat1, sprep := c.sprep, scat := c.scat,
           aref := c.aref }

/-- The line-of-sight stage. -/
def losStage (i : LrIn α) (h : Horizon α) (l : DiffLine α) (dist : α) (c : LrCache α) : Py (LrCache α) :=
  if dist < h.dlsa then
    if c.wlos = false then do
      let k ← losC i h l
      if 0.0 < dist then do
        let a ← losAref k dist
        pure { c with los := some k, wlos := true, aref := some a }
      else pure { c with los := some k, wlos := true }
    else pure c
  else pure c

/-- The scatter set-up stage. -/
def scatSetupStage (i : LrIn α) (h : Horizon α) (l : DiffLine α) (c : LrCache α) : Py (LrCache α) :=
  if c.wscat = false then do
    let (a, s, k) ← scatC i h l c.ascat1
    pure { c with ascat1 := a, sprep := some s, scat := some k, wscat := true }
  else pure c

/-- The beyond-horizon stage. -/
def scatStage (i : LrIn α) (h : Horizon α) (l : DiffLine α) (dist : α) (c : LrCache α) : Py (LrCache α) :=
  if dist ≤ 0.0 ∨ h.dlsa ≤ dist then do
    let c ← scatSetupStage i h l c
    let k ← need c.scat "dx"
    pure { c with aref := some (farAref l k dist) }
  else pure c

/-- The final clamp. -/
def clampStage (c : LrCache α) : Py (LrCache α) := do
  let a ← need c.aref "aref"
  pure { c with aref := some (pyMax a 0.0) }

/-- One evaluation at a distance, on the lazily computed keys. -/
def runC (i : LrIn α) (h : Horizon α) (l : DiffLine α) (dist : α) (c : LrCache α) : Py (LrCache α) := do
  let c ← losStage i h l dist c
  let c ← scatStage i h l dist c
  clampStage c

/-- The distance warnings. -/
def distKwxC (l : DiffLine α) (dist : α) (k : Int) : Int :=
  if 0.0 < dist then
    let k := if 1000e3 < dist then max k 1 else k
    let k := if dist < l.dmin then max k 3 else k
    if dist < 1e3 ∨ 2000e3 < dist then 4 else k
  else k

/-- The distance used by a call. -/
def distOf (p : PropSt α) (d : α) : α := if 0 ≤ p.mdp then d else p.dist

/-- The mode marker after a call. -/
def mdpOf (p : PropSt α) : Int := if 0 ≤ p.mdp then 0 else p.mdp

theorem lrRun_eq {p : PropSt α} {h : Horizon α} {l : DiffLine α} (hh : p.hor = some h) (hl : p.line = some l) (d : α) :
    lrRun d p = (do
      let c ← runC (inp p) h l (distOf p d) (cacheOf p)
      pure (setCache { p with dist := distOf p d, mdp := mdpOf p, kwx := distKwxC l (distOf p d) p.kwx } c)) := by
  -- the state after the distance and the distance warnings
  have e1 : lrDistKwx (lrSetDist d p) =
      .ok { p with dist := distOf p d, mdp := mdpOf p, kwx := distKwxC l (distOf p d) p.kwx } := by
    unfold lrDistKwx lrSetDist distOf mdpOf distKwxC
    by_cases hm : 0 ≤ p.mdp
    · simp only [hm, if_true, hl, need, ok_bind]
      split_ifs <;> rfl
    · simp only [hm, if_false, hl, need, ok_bind]
      obtain ⟨⟩ := p
      simp only at hl
      subst hl
      split_ifs <;> rfl
  unfold lrRun
  rw [e1, ok_bind]
  generalize hq : ({ p with dist := distOf p d, mdp := mdpOf p, kwx := distKwxC l (distOf p d) p.kwx } : PropSt α) = q
  have qh : q.hor = some h := by rw [← hq]; exact hh
  have ql : q.line = some l := by rw [← hq]; exact hl
  have qd : distOf p d = q.dist := by rw [← hq]
  have qi : inp p = inp q := by rw [← hq]; rfl
  have qc : cacheOf p = cacheOf q := by rw [← hq]; rfl
  rw [qd, qi, qc]
  clear hq qd qi qc e1 hh hl
  -- stage by stage
  have s1 : ∀ r : PropSt α, r.hor = some h → r.line = some l →
      lrLos r = (do let c ← losStage (inp r) h l r.dist (cacheOf r); pure (setCache r c)) := by
    intro r rh rl
    unfold lrLos losStage
    simp only [rh, need, ok_bind]
    by_cases h1 : r.dist < h.dlsa
    · simp only [h1, if_true]
      by_cases h2 : r.wlos = false
      · have h2' : (cacheOf r).wlos = false := h2
        rw [if_pos h2, if_pos h2']
        simp only [rl, ok_bind]
        rw [losCoef_eq rl]
        simp only [bind_assoc]
        congr 1; funext k
        obtain ⟨⟩ := r
        simp only at rh rl
        subst rh rl
        split_ifs <;> simp only [bind_assoc, pure_bind] <;> rfl
      · have h2' : ¬ (cacheOf r).wlos = false := h2
        rw [if_neg h2, if_neg h2']
        rfl
    · simp only [h1, if_false]; rfl
  have s2 : ∀ r : PropSt α, r.hor = some h → r.line = some l →
      lrScat r = (do let c ← scatStage (inp r) h l r.dist (cacheOf r); pure (setCache r c)) := by
    intro r rh rl
    unfold lrScat scatStage
    simp only [rh, need, ok_bind]
    by_cases h1 : r.dist ≤ 0.0 ∨ h.dlsa ≤ r.dist
    · rw [if_pos h1, if_pos h1]
      simp only [rl, ok_bind]
      unfold scatSetupStage
      by_cases h2 : r.wscat = false
      · have h2' : (cacheOf r).wscat = false := h2
        rw [if_pos h2', lrScatSetup_eq rh h2]
        simp only [bind_assoc, pure_bind, ok_bind]
        obtain ⟨⟩ := r
        simp only at rh rl
        subst rh rl
        rfl
      · have h2' : ¬ (cacheOf r).wscat = false := h2
        unfold lrScatSetup
        rw [if_neg h2, if_neg h2']
        simp only [bind_assoc, pure_bind]
        obtain ⟨⟩ := r
        simp only at rh rl
        subst rh rl
        rfl
    · rw [if_neg h1, if_neg h1]; rfl
  have s3 : ∀ r : PropSt α, lrClamp r = (do let c ← clampStage (cacheOf r); pure (setCache r c)) := by
    intro r
    unfold lrClamp clampStage
    simp only [bind_assoc, pure_bind]
    rfl
  unfold runC
  rw [s1 q qh ql]
  simp only [bind_assoc, pure_bind]
  congr 1; funext c
  have := s2 (setCache q c) qh ql
  rw [this]
  simp only [bind_assoc, pure_bind]
  congr 1; funext c'
  rw [s3 (setCache (setCache q c) c')]
  rfl

/-- A set-up call: `mdp ≠ 0`. -/
theorem lrprop_setup {p : PropSt α} (hm : p.mdp ≠ 0) (d : α) :
    lrprop d p = (do
      let s ← setupC p.mdp (inp p)
      let c ← runC (inp p) s.h s.l (distOf p d) { cacheOf p with wlos := false, wscat := false, ascat1 := 0.0 }
      pure (setCache { withSetup p s with dist := distOf p d, mdp := mdpOf p, kwx := distKwxC s.l (distOf p d) (lrKwx p s.h) } c)) := by
  unfold lrprop
  rw [if_pos hm, lrInit_eq]
  simp only [bind_assoc, pure_bind]
  congr 1; funext s
  rw [lrRun_eq (p := withSetup p s) (h := s.h) (l := s.l) rfl rfl]
  rfl

/-- A continuing call: `mdp = 0`. -/
theorem lrprop_cont {p : PropSt α} (hm : p.mdp = 0) {h : Horizon α} {l : DiffLine α} (hh : p.hor = some h)
    (hl : p.line = some l) (d : α) :
    lrprop d p = (do
      let c ← runC (inp p) h l d (cacheOf p)
      pure (setCache { p with dist := d, mdp := 0, kwx := distKwxC l d p.kwx } c)) := by
  unfold lrprop
  have : ¬ p.mdp ≠ 0 := by omega
  rw [if_neg this]
  change lrRun d p = _
  rw [lrRun_eq hh hl]
  have hd : distOf p d = d := by unfold distOf; rw [if_pos (by omega)]
  have hmd : mdpOf p = 0 := by unfold mdpOf; rw [if_pos (by omega)]
  rw [hd, hmd]

end Itm
