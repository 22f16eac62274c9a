import Verif.Model.State
import Verif.Spec.NearPath
import Verif.Spec.Precision

/-! General position of a path: the preparation of its parameters meets no threshold. -/

namespace Itm.Spec
open Itm Filter

variable {ι : Type} {l : Filter ι} {α : ι → Type} [∀ i, PyNum (α i)] {ε : ι → ℝ}

/-- Profiles of the same number of samples, whose spacings and heights approximate. -/
structure PflApx (F : Refining l α ε) (P : ∀ i, Pfl (α i)) (p : Pfl ℝ) : Prop where
  np : ∀ᶠ i in l, (P i).np = p.np
  len : ∀ᶠ i in l, (P i).z.length = p.z.length
  xi : F.Approx (fun i => (P i).xi) p.xi
  z : ∀ (j : ℕ) (x : ℝ), p.z[j]? = some x → ∃ a, (∀ᶠ i in l, (P i).z[j]? = some (a i)) ∧ F.Approx a x

/-- Approximation of pairs of values. -/
def TwoApx (F : Refining l α ε) (b : ∀ i, Pair (α i)) (x : Pair ℝ) : Prop := F.Approx (fun i => (b i).x0) x.x0 ∧ F.Approx (fun i => (b i).x1) x.x1

/-- Approximation of what the preparation of a path reads: profile, antenna heights, curvature. -/
structure TermApx (F : Refining l α ε) (P : ∀ i, PropSt (α i)) (p : PropSt ℝ) : Prop where
  pfl : PflApx F (fun i => (P i).pfl) p.pfl
  hg : TwoApx F (fun i => (P i).hg) p.hg
  gme : F.Approx (fun i => (P i).gme) p.gme

/-- Not a whole number. -/
def OffGrid (t : ℝ) : Prop := ∀ k : ℤ, t ≠ k

/-- The irregularity of the terrain between the positions `xa` and `xb` (in sample intervals) is found without meeting a threshold:
the window is not of exactly two intervals; if longer, the number of values discarded does not hang on its length. -/
structure SpreadClear (xa xb : ℝ) : Prop where
  two : xb - xa ≠ 2
  trim : 2 < xb - xa → ∀ k : ℕ, 5 ≤ k → k ≤ 25 → xb - xa ≠ 10 * k - 8

namespace Path
variable (P : Path)

/-- The horizons stand out: no other point of the terrain is seen under the same angle. -/
def Outstanding (θ₀ θ₁ d₀ d₁ : ℝ) : Prop :=
  StandsOut (fun j => elevation P.κ (P.z 0 + P.hg₀) (j * P.ξ) (P.z j))
    (elevation P.κ (P.z 0 + P.hg₀) P.len (P.z P.n + P.hg₁)) (fun j => j * P.ξ) P.len (P.n - 1) 0 θ₀ d₀ ∧
  StandsOut (fun j => elevation P.κ (P.z P.n + P.hg₁) ((P.n - j) * P.ξ) (P.z j))
    (elevation P.κ (P.z P.n + P.hg₁) P.len (P.z 0 + P.hg₀)) (fun j => (P.n - j) * P.ξ) P.len (P.n - 1) 0 θ₁ d₁

/-- The preparation meets no threshold: horizons stand out, no window begins or ends at a sample, and on clear paths the terrain is not
exactly flat and the estimated horizons do not just reach over the path. `zr` is the ground height taken for the receiver. -/
structure General (zr θ₀ θ₁ d₀ d₁ x y dh : ℝ) : Prop where
  horizons : P.Outstanding θ₀ θ₁ d₀ d₁
  start : OffGrid (x / P.ξ)
  stop : OffGrid (y / P.ξ)
  spread : SpreadClear (x / P.ξ) (y / P.ξ)
  rough : P.Clear → 0 < dh
  reach : P.Clear → ∀ c s, P.FitOver x y c s →
    roughHorizon P.κ dh (P.hg₀ + max (P.z 0 - c) 0) + roughHorizon P.κ dh (P.hg₁ + max (zr - (c + s * P.n)) 0) ≠ P.len
  fore : ¬ P.Clear → OffGrid (0.9 * d₀ / P.ξ)
  aft : ¬ P.Clear → OffGrid ((P.len - 0.9 * d₁) / P.ξ)

/-- A path in general position, of irregularity `dh`. -/
def Generic (zr dh : ℝ) : Prop := ∀ θ₀ θ₁ d₀ d₁ x y, P.Horizons θ₀ θ₁ d₀ d₁ → x = min (15 * P.hg₀) (0.1 * d₀) →
  y = P.len - min (15 * P.hg₁) (0.1 * d₁) → P.General zr θ₀ θ₁ d₀ d₁ x y dh

end Path
end Itm.Spec
