import Mathlib.Data.Real.Basic

/-! Radio horizons over a terrain profile. -/

namespace Itm.Spec

/-- Elevation angle (small-angle form) of a point of height `z` at distance `s`, seen from height `h` on an earth of
effective curvature `κ`: rise over run less the drop of the earth. -/
noncomputable def elevation (κ h s z : ℝ) : ℝ := (z - h) / s - κ / 2 * s

/-- `θ` is the largest of the angle `far` of the other terminal (at distance `full`) and the angles `view 1 … view m` of the
intermediate points (at distances `pos 1 … pos m`); `d` is the distance of the first intermediate point (in the order of the
numbers) that attains it, or `full` if no intermediate point exceeds the other terminal. -/
structure IsHorizon (view : ℕ → ℝ) (far : ℝ) (pos : ℕ → ℝ) (full : ℝ) (m : ℕ) (θ d : ℝ) : Prop where
  far_le : far ≤ θ
  view_le : ∀ j, 1 ≤ j → j ≤ m → view j ≤ θ
  attained : (θ = far ∧ d = full) ∨
    ∃ j, 1 ≤ j ∧ j ≤ m ∧ far < view j ∧ θ = view j ∧ d = pos j ∧ ∀ i, 1 ≤ i → i < j → view i < view j

end Itm.Spec
