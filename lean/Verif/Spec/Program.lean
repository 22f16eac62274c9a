import Verif.Spec.EndToEnd
import Verif.Spec.Unbarred
import Verif.Spec.Csv

/-! What the shipped programs write. -/

namespace Itm.Spec

/-- The basic transmission loss of a link at a distance if the reference attenuation were `a`. -/
noncomputable def Link.lossWith (L : Link) (k m : ℤ) (noLoc noSit : Bool) (d a zt zl zc : ℝ) : ℝ :=
  8.685890 * Real.log (2 * L.wn * d) + quantile k m noLoc noSit d L.dh L.he₀ L.he₁ L.wn a zt zl zc

theorem Link.lossWith_reference (L : Link) (k m : ℤ) (noLoc noSit : Bool) (d zt zl zc : ℝ) :
    L.lossWith k m noLoc noSit d (L.reference d) zt zl zc = L.loss k m noLoc noSit d zt zl zc := rfl

theorem Link.unbarredReference_eq {L : Link} {d : ℝ} (h : L.Regular d) : L.unbarredReference d = L.reference d := by
  unfold Link.unbarredReference Link.reference
  rcases h with h | ⟨h5, h6⟩
  · rw [if_pos h, if_pos h]
  · rw [Link.unbarred_eq h5 h6]

end Itm.Spec
