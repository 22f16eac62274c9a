import Verif.Model.State
import Verif.PyReal

/-! A concrete dictionary over the reals, used to show that hypotheses of theorems are met. -/

namespace Itm

/-- A 50 km path at 95.4 MHz over average terrain, with nothing computed yet except a reference attenuation of 20 dB. -/
noncomputable def demo : PropSt ℝ :=
  { fmhz := 95.4, d := 50, ipol := 0, hg := ⟨30, 10⟩, eps := 15, sgm := 0.005, ens0 := 301, gma := 157e-9, wn := 2, dh := 90,
    ens := 301, gme := 1.17e-7, zgnd := ⟨4, 0⟩, klimx := 5, mdvarx := 12, pfl := { np := 2, xi := 25000, z := [10, 20, 30] },
    he := ⟨30, 10⟩, dl := ⟨20000, 10000⟩, the := ⟨0, 0⟩, dist := 50000, mdp := 1, kwx := 0, lvar := 5, mdvar := some 12,
    klim := some 5, hor := none, diff := none, line := none, wlos := false, wscat := false, ascat1 := 0, los := none,
    sprep := none, scat := none, aref := some 20, clim := none, vmode := none, fgain := none, dexa := none, varc := none }

end Itm
