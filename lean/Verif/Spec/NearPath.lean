import Verif.Spec.Path

/-! The path parameters of a point-to-point link, found with errors. -/

namespace Itm.Spec

/-- The horizon at angle `θ` and distance `d` exceeds everything at other distances by more than `ε`. -/
def StandsOut (view : ℕ → ℝ) (far : ℝ) (pos : ℕ → ℝ) (full : ℝ) (m : ℕ) (ε θ d : ℝ) : Prop :=
  (d ≠ full → far + ε < θ) ∧ ∀ j, 1 ≤ j → j ≤ m → d ≠ pos j → view j + ε < θ

namespace Path
variable (P : Path)

/-- Both horizons stand out, by `4e-10` radians as seen from the first terminal and by `4e-8` radians as seen from the second. -/
def Distinct (θ₀ θ₁ d₀ d₁ : ℝ) : Prop :=
  StandsOut (fun j => elevation P.κ (P.z 0 + P.hg₀) (j * P.ξ) (P.z j))
    (elevation P.κ (P.z 0 + P.hg₀) P.len (P.z P.n + P.hg₁)) (fun j => j * P.ξ) P.len (P.n - 1) 4e-10 θ₀ d₀ ∧
  StandsOut (fun j => elevation P.κ (P.z P.n + P.hg₁) ((P.n - j) * P.ξ) (P.z j))
    (elevation P.κ (P.z P.n + P.hg₁) P.len (P.z 0 + P.hg₀)) (fun j => (P.n - j) * P.ξ) P.len (P.n - 1) 4e-8 θ₁ d₁

/-- `c + s t` is the line fitted to samples that cover the distances from `x` to `y`, whose ends may be wrong by 1e-5 intervals. -/
def NearFit (x y c s : ℝ) : Prop :=
  ∃ u v : ℝ, 0 ≤ u ∧ u < v ∧ v ≤ P.n ∧ |u - x / P.ξ| ≤ 1e-5 ∧ |v - y / P.ξ| ≤ 1e-5 ∧ BestLine P.z ⌊u⌋₊ (⌈v⌉₊ - ⌊u⌋₊) c s

/-- `dh` is, up to 0.15 mm, the irregularity of the terrain from `x` to `y`, whose ends may be wrong by 1e-5 intervals. -/
def NearIrregular (x y dh : ℝ) : Prop :=
  (dh = 0 ∧ y / P.ξ - x / P.ξ < 2 + 1e-5) ∨
  ∃ u v L ω : ℝ, 0 ≤ u ∧ v ≤ P.n ∧ 2 ≤ v - u ∧ |u - x / P.ξ| ≤ 1e-5 ∧ |v - y / P.ξ| ≤ 1e-5 ∧ |L - (y - x)| ≤ 1e-5 * P.ξ ∧
    IsIrregularity P.z u v L ω ∧ |dh - ω| ≤ 1.5e-4

/-- Horizon distance `d` and angle `t` estimated for the effective height `h`, up to the fraction 2e-13 of the distance and the fraction
3e-13 of the terms of the angle. -/
def NearEstimate (dh h d t : ℝ) : Prop :=
  |d - roughHorizon P.κ dh h| ≤ 2e-13 * roughHorizon P.κ dh h ∧
  |t - roughAngle P.κ dh h| ≤ 3e-13 * (0.65 * dh / roughHorizon P.κ dh h + 2 * h / smoothReach P.κ h)

/-- Parameters of a clear path: effective heights before raising up to a micrometre, raised ones up to the fraction 1e-12. -/
def NearClearGeometry (zr x y : ℝ) (G : Geometry) : Prop :=
  ∃ c s : ℝ, P.NearFit x y c s ∧ ∃ h₀ h₁ : ℝ, |h₀ - (P.hg₀ + max (P.z 0 - c) 0)| ≤ 1e-6 ∧ |h₁ - (P.hg₁ + max (zr - (c + s * P.n)) 0)| ≤ 1e-6 ∧
    |G.he₀ - h₀ * P.raise G.dh h₀ h₁| ≤ 1e-12 * (h₀ * P.raise G.dh h₀ h₁) ∧ |G.he₁ - h₁ * P.raise G.dh h₀ h₁| ≤ 1e-12 * (h₁ * P.raise G.dh h₀ h₁) ∧
    P.NearEstimate G.dh G.he₀ G.dl₀ G.the₀ ∧ P.NearEstimate G.dh G.he₁ G.dl₁ G.the₁

/-- Parameters of an obstructed path: effective heights up to a micrometre. -/
def NearObstructedGeometry (θ₀ θ₁ d₀ d₁ x y : ℝ) (G : Geometry) : Prop :=
  (∃ c s : ℝ, P.NearFit x (0.9 * d₀) c s ∧ |G.he₀ - (P.hg₀ + max (P.z 0 - c) 0)| ≤ 1e-6) ∧
  (∃ c s : ℝ, P.NearFit (P.len - 0.9 * d₁) y c s ∧ |G.he₁ - (P.hg₁ + max (P.z P.n - (c + s * P.n)) 0)| ≤ 1e-6) ∧
  |G.dl₀ - d₀| ≤ 1e-11 * d₀ ∧ |G.dl₁ - d₁| ≤ 1e-8 * d₁ ∧ |G.the₀ - θ₀| ≤ 2e-10 ∧ |G.the₁ - θ₁| ≤ 2e-8

/-- The parameters of a path, found with errors; compare `IsGeometry`. -/
def NearGeometry (zr θ₀ θ₁ d₀ d₁ : ℝ) (G : Geometry) : Prop :=
  ∃ x y : ℝ, x = min (15 * P.hg₀) (0.1 * d₀) ∧ y = P.len - min (15 * P.hg₁) (0.1 * d₁) ∧ P.NearIrregular x y G.dh ∧
    (P.Clear → P.NearClearGeometry zr x y G) ∧ (¬ P.Clear → P.NearObstructedGeometry θ₀ θ₁ d₀ d₁ x y G)

end Path
end Itm.Spec
