import Verif.Model.State

/-! Exchange of the two terminals. -/

namespace Itm.Spec
open Itm
variable {α : Type}

/-- The same link seen from the other end: antenna heights, effective heights, horizon distances and angles exchanged. -/
def exchange (p : PropSt α) : PropSt α :=
  { p with hg := p.hg.swap, he := p.he.swap, dl := p.dl.swap, the := p.the.swap }

end Itm.Spec
