import Verif.Spec.Leaf
import Verif.Spec.Fit
import Verif.Spec.Limits

/-! The reference attenuation of the ITM (section 4 of the algorithm description) as one function of the link and the
distance, over the reals: no dictionary, no coefficients kept from call to call. -/

namespace Itm.Spec

/-- A prepared link: antenna and effective heights, horizon distances and angles of the two terminals, wave number, terrain
irregularity, refractivity, effective earth curvature, ground impedance, and whether it is a known path (point-to-point). -/
structure Link where
  hg₀ : ℝ
  hg₁ : ℝ
  he₀ : ℝ
  he₁ : ℝ
  dl₀ : ℝ
  dl₁ : ℝ
  the₀ : ℝ
  the₁ : ℝ
  wn : ℝ
  dh : ℝ
  ens : ℝ
  gme : ℝ
  z : ℂ
  known : Bool

/-- The height gain of a terminal over a smooth earth, all ranges. -/
noncomputable def heightGain (x k : ℝ) : ℝ :=
  if 2000 ≤ x then farGain x
  else if 200 ≤ x then
    let w := 0.0134 * x * Real.exp (-0.005 * x)
    w * nearGain x + (1 - w) * farGain x
  else if k < 1e-5 ∨ 5495 < x * (-Real.log k) ^ 3 then (if 1 < x then nearGain x else -117)
  else 2.5e-5 * x ^ 2 / k + 8.686 * Real.log k - 15

/-- Attenuation function of forward scatter, of the product angle × distance. -/
noncomputable def scatterCurve (x : ℝ) : ℝ :=
  if x ≤ 10000 then 133.4 + 3.32e-4 * x - 4.343 * Real.log x
  else if x ≤ 70000 then 104.6 + 2.12e-4 * x - 1.086 * Real.log x
  else 71.8 + 1.57e-4 * x + 2.171 * Real.log x

/-- Frequency gain of scatter: table rows at efficiencies 1 … 5, linear between them, constant outside. -/
noncomputable def scatterTable (r e : ℝ) : ℝ :=
  let e := min (max e 1) 5
  let k := ⌊e⌋.toNat
  (1 - (e - k)) * gainRow (gainRows.getD (k - 1) (0, 0)) r + (e - k) * gainRow (gainRows.getD k (0, 0)) r

namespace Link
variable (L : Link)

/-- Sum of the smooth-earth horizon distances. -/
noncomputable def dlsa : ℝ := smoothHorizon L.he₀ L.gme + smoothHorizon L.he₁ L.gme
/-- Sum of the horizon distances. -/
noncomputable def dla : ℝ := L.dl₀ + L.dl₁
/-- Total bending angle at the horizons, not below the smooth-earth value. -/
noncomputable def tha : ℝ := max (L.the₀ + L.the₁) (-L.dla * L.gme)
/-- Scale of diffraction distances. -/
noncomputable def xae : ℝ := (L.wn * L.gme ^ 2) ^ (-(1 / 3) : ℝ)

/-! ### Diffraction -/

/-- Reciprocal impedance. -/
noncomputable def zInv : ℝ := 1 / ‖L.z‖
/-- Sum of the rounded-earth arguments of the terminals. -/
noncomputable def xht : ℝ := terminalArg L.wn L.zInv L.dl₀ L.he₀ + terminalArg L.wn L.zInv L.dl₁ L.he₁
/-- Sum of the height gains, plus 20 dB. -/
noncomputable def aht : ℝ :=
  20 + heightGain (terminalArg L.wn L.zInv L.dl₀ L.he₀) (terminalK L.wn L.zInv L.dl₀ L.he₀)
    + heightGain (terminalArg L.wn L.zInv L.dl₁ L.he₁) (terminalK L.wn L.zInv L.dl₁ L.he₁)
/-- Siting constant of the weight. -/
noncomputable def wd1 : ℝ :=
  √(1 + (L.he₀ * L.he₁ - L.hg₀ * L.hg₁) / (L.hg₀ * L.hg₁ + if L.known then 10 else 0))
/-- Distance constant of the weight. -/
noncomputable def xd1 : ℝ := L.dla + L.tha / L.gme

/-- Diffraction attenuation at a distance. -/
noncomputable def diffraction (d : ℝ) : ℝ :=
  let w := diffWeight L.wn L.dh L.wd1 L.xd1 d
  w * roundedEarth L.wn (d - L.dla) (L.tha + d * L.gme) L.zInv L.xht L.aht
    + (1 - w) * doubleKnife L.wn (d - L.dla) (L.tha + d * L.gme) L.dl₀ L.dl₁
    + clutter L.wn L.dh L.hg₀ L.hg₁ L.dlsa

/-- First distance of the diffraction line. -/
noncomputable def d3 : ℝ := max L.dlsa (L.dla + 1.3787 * L.xae)
/-- Second distance of the diffraction line. -/
noncomputable def d4 : ℝ := L.d3 + 2.7574 * L.xae
/-- Slope of the diffraction line. -/
noncomputable def md : ℝ := (L.diffraction L.d4 - L.diffraction L.d3) / (L.d4 - L.d3)
/-- The diffraction line: through the diffraction attenuations at the two distances. -/
noncomputable def diffLine (d : ℝ) : ℝ := L.diffraction L.d3 + L.md * (d - L.d3)

/-! ### Line of sight -/

/-- Weight of the two-ray attenuation. -/
noncomputable def wis : ℝ := 0.021 / (0.021 + L.wn * L.dh / max 10000 L.dlsa)
/-- Line-of-sight attenuation before the fit. -/
noncomputable def twoRayMix (d : ℝ) : ℝ :=
  L.wis * twoRay L.wn L.dh L.he₀ L.he₁ d L.z + (1 - L.wis) * L.diffLine d

/-- Linear and logarithmic coefficient of the fit through three distances, with the sign repairs. -/
noncomputable def fitCoef : ℝ × ℝ :=
  let d0 := (fitDistances L.wn L.he₀ L.he₁ L.dla (L.diffLine 0) L.md).1
  let d1 := (fitDistances L.wn L.he₀ L.he₁ L.dla (L.diffLine 0) L.md).2
  let d2 := L.dlsa
  let a1 := L.twoRayMix d1
  let a2 := L.diffLine d2
  let straight := if a2 ≤ a1 then (L.md, 0) else ((a2 - a1) / (d2 - d1), 0)
  if d0 < d1 then
    let a0 := L.twoRayMix d0
    let k2 := max 0 (((d2 - d0) * (a1 - a0) - (d1 - d0) * (a2 - a0)) /
      ((d2 - d0) * Real.log (d1 / d0) - (d1 - d0) * Real.log (d2 / d0)))
    if 0 ≤ L.diffLine 0 ∨ 0 < k2 then
      let k1 := (a2 - a0 - k2 * Real.log (d2 / d0)) / (d2 - d0)
      if 0 ≤ k1 then (k1, k2)
      else if a2 ≤ a0 then (L.md, 0) else (0, (a2 - a0) / Real.log (d2 / d0))
    else straight
  else straight

/-- Line-of-sight attenuation. -/
noncomputable def sight (d : ℝ) : ℝ :=
  L.diffLine L.dlsa + L.fitCoef.1 * (d - L.dlsa) + L.fitCoef.2 * Real.log (d / L.dlsa)

/-! ### Forward scatter -/

/-- Scatter angle. -/
noncomputable def scatterAngle (d : ℝ) : ℝ := L.the₀ + L.the₁ + d * L.gme
/-- Scatter parameter of a terminal. -/
noncomputable def scatterR (he d : ℝ) : ℝ := 2 * L.wn * L.scatterAngle d * he
/-- The distance is usable for scatter: some scatter parameter reaches 0.2. -/
def ScatterOk (d : ℝ) : Prop := 0.2 ≤ L.scatterR L.he₀ d ∨ 0.2 ≤ L.scatterR L.he₁ d

/-- Asymmetry of the horizon distances. -/
noncomputable def ad : ℝ := |L.dl₀ - L.dl₁|
/-- Height ratio, from the terminal with the longer horizon distance. -/
noncomputable def rr : ℝ := if L.dl₀ < L.dl₁ then L.he₀ / L.he₁ else L.he₁ / L.he₀
/-- Height of the crossover. -/
noncomputable def z0 (d : ℝ) : ℝ := (d - L.ad) * (d + L.ad) * L.scatterAngle d / (4 * d)
/-- Scatter efficiency. -/
noncomputable def eta (d : ℝ) : ℝ :=
  L.z0 d / 1755.6 * (1 + (0.031 - 0.00232 * L.ens + 5.67e-6 * L.ens ^ 2) * Real.exp (-(min 1.7 (L.z0 d / 8000)) ^ 6))

/-- Frequency gain of the path, before it is limited by the value at the other distance. -/
noncomputable def scatterGain (d : ℝ) : ℝ :=
  let r1 := L.scatterR L.he₀ d
  let r2 := L.scatterR L.he₁ d
  let e := max (L.eta d) 1
  let s := (d - L.ad) / (d + L.ad)
  let h := (scatterTable r1 e + scatterTable r2 e) / 2
  let asym := 0.49 * (1.38 - Real.log e) * Real.log (max 0.1 s) * Real.log (min (max 0.1 (L.rr / s)) 10)
  let h' := max (h + min h asym) 0
  if L.eta d < 1 then
    L.eta d * h' + (1 - L.eta d) *
      (4.343 * Real.log (((1 + 1.4142 / r1) * (1 + 1.4142 / r2)) ^ 2 * (r1 + r2) / (r1 + r2 + 2.8284)))
  else h'

/-- Scatter attenuation with a given frequency gain. -/
noncomputable def scatterAtt (d h : ℝ) : ℝ :=
  let th := L.tha + d * L.gme
  scatterCurve (th * d) + 4.343 * Real.log (47.7 * L.wn * th ^ 4) - 0.1 * (L.ens - 301) * Real.exp (-th * d / 40000) + h

/-- Nearer distance of the scatter line. -/
noncomputable def d5 : ℝ := L.dla + 200000
/-- Farther distance of the scatter line. -/
noncomputable def d6 : ℝ := L.dla + 400000
/-- Frequency gain at the nearer distance: not above 15 dB unless the one at the farther distance is. -/
noncomputable def gain5 : ℝ :=
  if 15 < L.scatterGain L.d6 ∨ (15 < L.scatterGain L.d5 ∧ 0 ≤ L.scatterGain L.d6) then L.scatterGain L.d6
  else L.scatterGain L.d5
/-- Scatter attenuation at the nearer distance. -/
noncomputable def a5 : ℝ := L.scatterAtt L.d5 L.gain5
/-- Scatter attenuation at the farther distance. -/
noncomputable def a6 : ℝ := L.scatterAtt L.d6 (L.scatterGain L.d6)
/-- Slope of the scatter line. -/
noncomputable def ms : ℝ := (L.a6 - L.a5) / (L.d6 - L.d5)
/-- Where scatter takes over: the intersection of the two lines, beyond the horizons. -/
noncomputable def dx : ℝ :=
  max (max L.dlsa (L.dla + 0.3 * L.xae * Real.log (47.7 * L.wn))) ((L.a5 - L.ms * L.d5 - L.diffLine 0) / (L.md - L.ms))

open Classical in
/-- Attenuation beyond the horizon: the diffraction line, and from `dx` on the scatter slope. Scatter is left out when the
nearer distance is not usable for it or its attenuation there reaches 1000 dB. -/
noncomputable def beyond (d : ℝ) : ℝ :=
  if L.ScatterOk L.d5 ∧ L.a5 < 1000 ∧ L.dx < d then L.diffLine L.dx + L.ms * (d - L.dx) else L.diffLine d

/-- The reference attenuation. -/
noncomputable def reference (d : ℝ) : ℝ :=
  max 0 (if 0 < d ∧ d < L.dlsa then L.sight d else L.beyond d)

end Link

/-- The link described by a prepared dictionary. -/
def linkOf (p : PropSt ℝ) : Link :=
  { hg₀ := p.hg.x0, hg₁ := p.hg.x1, he₀ := p.he.x0, he₁ := p.he.x1, dl₀ := p.dl.x0, dl₁ := p.dl.x1, the₀ := p.the.x0,
    the₁ := p.the.x1, wn := p.wn, dh := p.dh, ens := p.ens, gme := p.gme, z := ⟨p.zgnd.re, p.zgnd.im⟩,
    known := decide (p.mdp < 0) }

end Itm.Spec
