import Verif.Spec.PathClear
import Verif.Spec.AreaClear

/-! What the user of the point-to-point program supplies. -/

namespace Itm.Spec
open Itm Filter

variable {ι : Type} {l : Filter ι} {α : ι → Type} [∀ i, PyNum (α i)] {ε : ι → ℝ}

/-- Frequency, distance, antenna heights and terrain heights approximate; polarisation and (finally) number of samples are the same. -/
structure LinkApx (F : Refining l α ε) (P : ∀ i, PropSt (α i)) (p : PropSt ℝ) (A : ∀ i, List (α i)) (a : List ℝ) : Prop where
  fmhz : F.Approx (fun i => (P i).fmhz) p.fmhz
  d : F.Approx (fun i => (P i).d) p.d
  hg : TwoApx F (fun i => (P i).hg) p.hg
  ipol : ∀ i, (P i).ipol = p.ipol
  len : ∀ᶠ i in l, (A i).length = a.length
  z : ∀ (j : ℕ) (x : ℝ), a[j]? = some x → ∃ b, (∀ᶠ i in l, (A i)[j]? = some (b i)) ∧ F.Approx b x

end Itm.Spec
