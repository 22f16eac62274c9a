import Verif.Model.State

/-! `src/itmlogic/los_attenuation` -/

namespace Itm
variable {α : Type} [PyNum α]

/-- The reflection coefficient and phase of `alos.py` 23-47: `(r, q)`. -/
def alosRay (d : α) (p : PropSt α) : Py (Cx α × α) := do
  let q := (1.0 - 0.8 * PyNum.exp (-d / 50e3)) * p.dh
  let s := 0.78 * q * PyNum.exp (-(← pyPow (q / 16.0) 0.25))
  let q := p.he.x0 + p.he.x1
  let sps ← q /! (← mathSqrt (npow d 2 + npow q 2))
  let r ← Cx.div (Cx.sub ⟨sps, 0.0⟩ p.zgnd) (Cx.add ⟨sps, 0.0⟩ p.zgnd)
  let r := r.smul (PyNum.exp (-(pyMin 10.0 (p.wn * s * sps))))
  let q := npow r.abs 2
  let r ← if q < 0.25 ∨ q < sps then do
      let t ← mathSqrt (← sps /! q)
      pure (r.smul t)
    else pure r
  let q ← (p.wn * p.he.x0 * p.he.x1 * 2.0) /! d
  let q ← if 1.57 < q then do
      pure (3.14 - (← (2.4649 : α) /! q))
    else pure q
  pure (r, q)

/-- The two-ray (plane earth) attenuation `-4.343 ln |e^{-iq} + r|²` (`alos.py` 49-51). -/
def alosPlane (d : α) (p : PropSt α) : Py α := do
  let (r, q) ← alosRay d p
  let l ← npLog (npow (Cx.add ⟨PyNum.cos q, -(PyNum.sin q)⟩ r).abs 2)
  pure (-4.343 * l)

/-- The extended diffraction attenuation `emd*d + aed` (`alos.py` 42). -/
def alosExt (d : α) (p : PropSt α) : Py α := do
  let c ← need p.line "emd"
  pure (c.emd * d + c.aed)

/-- `los_attenuation/alos.py` 4-55. -/
def alos (d : α) (p : PropSt α) : Py α := do
  let a ← alosExt d p
  let pl ← alosPlane d p
  let c ← need p.line "wis"
  pure ((pl - a) * c.wis + a)

end Itm
