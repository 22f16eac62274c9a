import Verif.Spec.Path

/-! Two changes of a terrain profile that should not matter: another height datum, and reading the path from its other end. -/

namespace Itm.Spec

/-- All ground heights raised by `c`. -/
def Path.shift (P : Path) (c : ℝ) : Path := { P with z := fun j => P.z j + c }

/-- The path seen from its other end. -/
def Path.rev (P : Path) : Path := { P with hg₀ := P.hg₁, hg₁ := P.hg₀, z := fun j => P.z (P.n - j) }

/-- The two terminals exchanged. -/
def Geometry.swap (G : Geometry) : Geometry :=
  { he₀ := G.he₁, he₁ := G.he₀, dl₀ := G.dl₁, dl₁ := G.dl₀, the₀ := G.the₁, the₁ := G.the₀, dh := G.dh }

/-- Of the intermediate points, at most one shows the largest elevation angle. -/
def OnePeak (view : ℕ → ℝ) (m : ℕ) : Prop :=
  ∀ i j, 1 ≤ i → i ≤ m → 1 ≤ j → j ≤ m → (∀ k, 1 ≤ k → k ≤ m → view k ≤ view i) → view j = view i → j = i

/-- Neither terminal sees two horizon obstacles under one angle. -/
def Path.SharpHorizons (P : Path) : Prop :=
  OnePeak (fun j => elevation P.κ (P.z 0 + P.hg₀) (j * P.ξ) (P.z j)) (P.n - 1) ∧
  OnePeak (fun j => elevation P.κ (P.z P.n + P.hg₁) ((P.n - j) * P.ξ) (P.z j)) (P.n - 1)

end Itm.Spec
