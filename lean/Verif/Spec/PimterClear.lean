import Verif.Spec.PathClear
import Verif.Spec.EndToEnd

/-! What the measurement-campaign program is given. -/

namespace Itm.Spec
open Itm Filter

variable {ι : Type} {l : Filter ι} {α : ι → Type} [∀ i, PyNum (α i)] {ε : ι → ℝ}

/-- Lists of (finally) the same length, whose entries approximate. -/
structure SeqApx (F : Refining l α ε) (A : ∀ i, List (α i)) (a : List ℝ) : Prop where
  len : ∀ᶠ i in l, (A i).length = a.length
  get : ∀ (j : ℕ) (x : ℝ), a[j]? = some x → ∃ b, (∀ᶠ i in l, (A i)[j]? = some (b i)) ∧ F.Approx b x

/-- The path of the campaign for an antenna height: `n` intervals of `ξ` metres, the other antenna at 2.56 m. -/
noncomputable def campaignPath (n : ℕ) (ξ : ℝ) (terrain : List ℝ) (h : ℝ) : Path :=
  ⟨n, ξ, curvature 314, 2.56, h, fun j => terrain.getD j 0⟩

/-- The heights of the campaign. -/
def CampaignHeight (h : ℝ) : Prop := ∃ k : ℕ, k ≤ 120 ∧ h = 10 + k

end Itm.Spec
