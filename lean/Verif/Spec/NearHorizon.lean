import Verif.Spec.Horizon
import Mathlib.Tactic.Linarith

/-! Radio horizons found with errors. -/

namespace Itm.Spec

/-- `θ` is, up to `ε`, the largest of the angle `far` of the other terminal and the angles `view 1 … view m` of the intermediate
points, and `d` is, up to the fraction `η`, the distance of one that attains it up to `ε`. -/
structure NearHorizon (view : ℕ → ℝ) (far : ℝ) (pos : ℕ → ℝ) (full : ℝ) (m : ℕ) (ε η θ d : ℝ) : Prop where
  far_le : far ≤ θ + ε
  view_le : ∀ j, 1 ≤ j → j ≤ m → view j ≤ θ + ε
  attained : (|θ - far| ≤ ε ∧ |d - full| ≤ η * full) ∨
    ∃ j, 1 ≤ j ∧ j ≤ m ∧ |θ - view j| ≤ ε ∧ |d - pos j| ≤ η * pos j

/-- The angle is within `ε` of the exact one. -/
theorem NearHorizon.angle {view pos : ℕ → ℝ} {far full ε η θ d θ' d' : ℝ} {m : ℕ} (h : NearHorizon view far pos full m ε η θ d)
    (h' : IsHorizon view far pos full m θ' d') : |θ - θ'| ≤ ε := by
  rw [abs_le]
  constructor
  · rcases h'.attained with ⟨e, -⟩ | ⟨j, j1, j2, -, e, -, -⟩
    · have := h.far_le; linarith
    · have := h.view_le j j1 j2; linarith
  · rcases h.attained with ⟨e, -⟩ | ⟨j, j1, j2, e, -⟩
    · have := h'.far_le; have := (abs_le.1 e).2; linarith
    · have := h'.view_le j j1 j2; have := (abs_le.1 e).2; linarith

/-- If the exact horizon stands out by more than `2ε`, the distance is that of the exact horizon. -/
theorem NearHorizon.distance {view pos : ℕ → ℝ} {far full ε η θ d θ' d' : ℝ} {m : ℕ} (h : NearHorizon view far pos full m ε η θ d)
    (h' : IsHorizon view far pos full m θ' d') (hfar : d' ≠ full → far + 2 * ε < θ')
    (hview : ∀ j, 1 ≤ j → j ≤ m → d' ≠ pos j → view j + 2 * ε < θ') : |d - d'| ≤ η * d' := by
  have ha := abs_le.1 (h.angle h')
  rcases h.attained with ⟨e, hd⟩ | ⟨j, j1, j2, e, hd⟩
  · have : d' = full := by
      by_contra hc
      have := hfar hc
      have := abs_le.1 e
      linarith
    rwa [this]
  · have : d' = pos j := by
      by_contra hc
      have := hview j j1 j2 hc
      have := abs_le.1 e
      linarith
    rwa [this]

end Itm.Spec
