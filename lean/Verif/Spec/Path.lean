import Verif.Spec.Horizon
import Verif.Spec.Prep
import Verif.Spec.Rough

/-! The path parameters of a point-to-point link (section 2 of the algorithm description), as a relation between the terrain
profile and the parameters. -/

namespace Itm.Spec

/-- A profile of `n` intervals of length `ξ`, ground heights `z 0 … z n`, antenna heights above ground, earth curvature. -/
structure Path where
  n : ℕ
  ξ : ℝ
  κ : ℝ
  hg₀ : ℝ
  hg₁ : ℝ
  z : ℕ → ℝ

/-- Effective heights, horizon distances and angles, terrain irregularity. -/
structure Geometry where
  he₀ : ℝ
  he₁ : ℝ
  dl₀ : ℝ
  dl₁ : ℝ
  the₀ : ℝ
  the₁ : ℝ
  dh : ℝ

namespace Path
variable (P : Path)

/-- Length of the path. -/
noncomputable def len : ℝ := P.n * P.ξ

/-- No intermediate point rises above the line of sight. -/
def Clear : Prop := ∀ j : ℕ, 1 ≤ j → j < P.n →
  P.z j + P.κ / 2 * (j * P.ξ) * ((P.n - j) * P.ξ) ≤ (1 - j / P.n) * (P.z 0 + P.hg₀) + j / P.n * (P.z P.n + P.hg₁)

/-- The radio horizons of the two terminals. -/
def Horizons (θ₀ θ₁ d₀ d₁ : ℝ) : Prop :=
  IsHorizon (fun j => elevation P.κ (P.z 0 + P.hg₀) (j * P.ξ) (P.z j))
    (elevation P.κ (P.z 0 + P.hg₀) P.len (P.z P.n + P.hg₁)) (fun j => j * P.ξ) P.len (P.n - 1) θ₀ d₀ ∧
  IsHorizon (fun j => elevation P.κ (P.z P.n + P.hg₁) ((P.n - j) * P.ξ) (P.z j))
    (elevation P.κ (P.z P.n + P.hg₁) P.len (P.z 0 + P.hg₀)) (fun j => (P.n - j) * P.ξ) P.len (P.n - 1) θ₁ d₁

/-- `c + s t` is the line fitted to the samples that cover the distances from `x` to `y`. -/
def FitOver (x y c s : ℝ) : Prop := BestLine P.z ⌊x / P.ξ⌋.toNat (⌈y / P.ξ⌉ - ⌊x / P.ξ⌋).toNat c s

/-- `dh` is the irregularity of the terrain from `x` to `y`; 0 over less than two intervals. -/
def Irregular (x y dh : ℝ) : Prop :=
  (2 ≤ y / P.ξ - x / P.ξ → IsIrregularity P.z (x / P.ξ) (y / P.ξ) (y - x) dh) ∧ (y / P.ξ - x / P.ξ < 2 → dh = 0)

/-- Factor by which the heights are raised on clear paths if the estimated horizons do not reach. -/
noncomputable def raise (dh h₀ h₁ : ℝ) : ℝ :=
  if roughHorizon P.κ dh h₀ + roughHorizon P.κ dh h₁ ≤ P.len then (P.len / (roughHorizon P.κ dh h₀ + roughHorizon P.κ dh h₁)) ^ 2
  else 1

/-- Parameters of a clear path whose receiver stands on ground of height `zr`: one line fitted to the whole window, heights over
it, horizons estimated from irregularity. -/
def ClearGeometry (zr x y : ℝ) (G : Geometry) : Prop :=
  ∃ c s, P.FitOver x y c s ∧
    let h₀ := P.hg₀ + max (P.z 0 - c) 0
    let h₁ := P.hg₁ + max (zr - (c + s * P.n)) 0
    let f := P.raise G.dh h₀ h₁
    G.he₀ = h₀ * f ∧ G.he₁ = h₁ * f ∧
    G.dl₀ = roughHorizon P.κ G.dh (h₀ * f) ∧ G.dl₁ = roughHorizon P.κ G.dh (h₁ * f) ∧
    G.the₀ = roughAngle P.κ G.dh (h₀ * f) ∧ G.the₁ = roughAngle P.κ G.dh (h₁ * f)

/-- Parameters of an obstructed path: the horizons as found, a line fitted to the foreground of each terminal, heights over it. -/
def ObstructedGeometry (θ₀ θ₁ d₀ d₁ x y : ℝ) (G : Geometry) : Prop :=
  (∃ c s, P.FitOver x (0.9 * d₀) c s ∧ G.he₀ = P.hg₀ + max (P.z 0 - c) 0) ∧
  (∃ c s, P.FitOver (P.len - 0.9 * d₁) y c s ∧ G.he₁ = P.hg₁ + max (P.z P.n - (c + s * P.n)) 0) ∧
  G.dl₀ = d₀ ∧ G.dl₁ = d₁ ∧ G.the₀ = θ₀ ∧ G.the₁ = θ₁

/-- The parameters of a path; `zr` is the ground height taken for the receiver if the path is clear. -/
def IsGeometry (zr : ℝ) (G : Geometry) : Prop :=
  ∃ θ₀ θ₁ d₀ d₁ x y, P.Horizons θ₀ θ₁ d₀ d₁ ∧ x = min (15 * P.hg₀) (0.1 * d₀) ∧ y = P.len - min (15 * P.hg₁) (0.1 * d₁) ∧
    P.Irregular x y G.dh ∧ (P.Clear → P.ClearGeometry zr x y G) ∧ (¬ P.Clear → P.ObstructedGeometry θ₀ θ₁ d₀ d₁ x y G)

end Path
end Itm.Spec
