import Verif.Spec.Reference
import Verif.Spec.Quantile
import Verif.Spec.Path

/-! The basic transmission loss the runners are supposed to report, from the user's inputs. -/

namespace Itm.Spec

/-- Effective height of an antenna at `hg` over terrain of irregularity `dh`: random (`k ≤ 0`), careful (1) or very careful (2)
siting. -/
noncomputable def sitedHeight (k : ℤ) (hg dh : ℝ) : ℝ :=
  if k ≤ 0 then hg
  else
    let b := (if k = 1 then 4 else 9) * (if hg < 5 then Real.sin (0.3141593 * hg) else 1)
    hg + (1 + b) * Real.exp (-min 20 (2 * hg / max 1e-3 dh))

/-- Effective earth curvature under surface refractivity `N`. -/
noncomputable def curvature (N : ℝ) : ℝ := 157e-9 * (1 - 0.04665 * Real.exp (N / 179.3))

/-- Wave number of a frequency in MHz. -/
noncomputable def waveNumber (f : ℝ) : ℝ := f / 47.7

/-- Complex relative permittivity of ground. -/
noncomputable def permittivity (ε σ w : ℝ) : ℂ := ⟨ε, 376.62 * σ / w⟩

/-- `z` is the surface transfer impedance of the ground. -/
def IsImpedance (ε σ w : ℝ) (vertical : Bool) (z : ℂ) : Prop :=
  ∃ r : ℂ, r ^ 2 = permittivity ε σ w - 1 ∧ 0 ≤ r.re ∧ z = if vertical then r / permittivity ε σ w else r

/-- The basic transmission loss of a link at a distance, for given deviates: free-space loss plus quantile. -/
noncomputable def Link.loss (L : Link) (k m : ℤ) (noLoc noSit : Bool) (d zt zl zc : ℝ) : ℝ :=
  8.685890 * Real.log (2 * L.wn * d) + quantile k m noLoc noSit d L.dh L.he₀ L.he₁ L.wn (L.reference d) zt zl zc

/-- The distance is line of sight, or both scatter distances are usable. -/
def Link.Regular (L : Link) (d : ℝ) : Prop := (0 < d ∧ d < L.dlsa) ∨ (L.ScatterOk L.d5 ∧ L.ScatterOk L.d6)

/-- The link of an area prediction. -/
noncomputable def roughLink (f dh h₀ h₁ N : ℝ) (k₀ k₁ : ℤ) (z : ℂ) : Link where
  hg₀ := h₀
  hg₁ := h₁
  he₀ := sitedHeight k₀ h₀ dh
  he₁ := sitedHeight k₁ h₁ dh
  dl₀ := roughHorizon (curvature N) dh (sitedHeight k₀ h₀ dh)
  dl₁ := roughHorizon (curvature N) dh (sitedHeight k₁ h₁ dh)
  the₀ := roughAngle (curvature N) dh (sitedHeight k₀ h₀ dh)
  the₁ := roughAngle (curvature N) dh (sitedHeight k₁ h₁ dh)
  wn := waveNumber f
  dh := dh
  ens := N
  gme := curvature N
  z := z
  known := false

/-- The impedance the area runner uses: of ground without conductivity (`C47_refuted`). -/
noncomputable def lossless (f : ℝ) (vertical : Bool) : ℂ :=
  if vertical then (√14 : ℝ) / permittivity 15 0.001 (waveNumber f) else (√14 : ℝ)

/-- The link of a path with given parameters. -/
def Path.link (P : Path) (G : Geometry) (w N : ℝ) (z : ℂ) : Link where
  hg₀ := P.hg₀
  hg₁ := P.hg₁
  he₀ := G.he₀
  he₁ := G.he₁
  dl₀ := G.dl₀
  dl₁ := G.dl₁
  the₀ := G.the₀
  the₁ := G.the₁
  wn := w
  dh := G.dh
  ens := N
  gme := P.κ
  z := z
  known := true

/-- The path of a profile of heights spread evenly over `d` kilometres, under refractivity 314. -/
noncomputable def profilePath (d h₀ h₁ : ℝ) (profile : List ℝ) : Path where
  n := profile.length - 1
  ξ := 1000 * d / (profile.length - 1 : ℕ)
  κ := curvature 314
  hg₀ := h₀
  hg₁ := h₁
  z := fun j => profile.getD j 0

end Itm.Spec
