import Verif.PyFloat
import Verif.Model.Runners
import Verif.Model.Terrain

/-!
Executions of the model with IEEE doubles on the inputs of the repository's own tests
(`/repo/tests`). These are tests of the model's fidelity, not proofs; no theorem depends on this file.
-/

namespace Itm.Conformance

/-- Relative agreement to 1e-11 (libm differences and complex arithmetic may cost a few ulp). -/
def near (x : Py Float) (y : Float) (tol : Float := 1e-11) : Bool :=
  match x with
  | .ok v => (v - y).abs ≤ tol * (1.0 + y.abs)
  | .error _ => false

/-- Equality after rounding to `n` decimals, as the tests do. -/
def roundsTo (x : Py Float) (n : Nat) (y : Float) : Bool :=
  let s := Float.ofNat (10 ^ n)
  match x with
  | .ok v => ((v * s).round / s - y).abs ≤ 1e-9
  | .error _ => false

/-- An empty dictionary. -/
def blank : PropSt Float :=
  { fmhz := 0.0, d := 0.0, ipol := 0, hg := ⟨0.0, 0.0⟩, eps := 0.0, sgm := 0.0, ens0 := 0.0, gma := 0.0,
    wn := 0.0, dh := 0.0, ens := 0.0, gme := 0.0, zgnd := ⟨0.0, 0.0⟩, klimx := 0, mdvarx := 0,
    pfl := ⟨0, 0.0, []⟩, he := ⟨0.0, 0.0⟩, dl := ⟨0.0, 0.0⟩, the := ⟨0.0, 0.0⟩, dist := 0.0, mdp := 0,
    kwx := 0, lvar := 0, mdvar := none, klim := none, hor := none, diff := none, line := none,
    wlos := false, wscat := false, ascat1 := 0.0, los := none, sprep := none, scat := none, aref := none,
    clim := none, vmode := none, fgain := none, dexa := none, varc := none }

/-- `tests/conftest.py` 106-120. -/
def surface : List Float :=
  [ 96,  84,  65,  46,  46,  46,  61,  41,  33,  27,  23,  19,  15,  15,  15,
    15,  15,  15,  15,  15,  15,  15,  15,  15,  17,  19,  21,  23,  25,  27,
    29,  35,  46,  41,  35,  30,  33,  35,  37,  40,  35,  30,  51,  62,  76,
    46,  46,  46,  46,  46,  46,  50,  56,  67, 106,  83,  95, 112, 137, 137,
    76, 103, 122, 122,  83,  71,  61,  64,  67,  71,  74,  77,  79,  86,  91,
    83,  76,  68,  63,  76, 107, 107, 107, 119, 127, 133, 135, 137, 142, 148,
    152, 152, 107, 137, 104,  91,  99, 120, 152, 152, 137, 168, 168, 122, 137,
    137, 170, 183, 183, 187, 194, 201, 192, 152, 152, 166, 177, 198, 156, 127,
    116, 107, 104, 101,  98,  95, 103,  91,  97, 102, 107, 107, 107, 103,  98,
    94,  91, 105, 122, 122, 122, 122, 122, 137, 137, 137, 137, 137, 137, 137,
    137, 140, 144, 147, 150, 152, 159 ]

def pfl1 : Pfl Float := { np := 156, xi := 498.717948717949, z := surface }

/-- `tests/conftest.py` 25-76 (`setup_z`). -/
def zprof : Pfl Float :=
  { np := 144, xi := 1, z := [
    122.90750642673521, 150.53842759211653, 116.70283204798628, 87.21328406169664, 69.3745501285347,
    57.18863110539845, 46.34651670951156, 35.916416023993136, 33.89832904884318, 33.12580334190231,
    32.35327763496144, 31.58075192802056, 30.808226221079686, 30.035700514138814, 44.26317480719794,
    43.490649100257066, 42.71812339331619, 41.945597686375315, 45.17307197943444, 49.787285775492705,
    54.19549271636674, 58.39769280205655, 62.393886032562115, 66.18407240788345, 69.76825192802056,
    81.14642459297342, 103.6500214224507, 94.94237789203083, 79.4240274207369, 66.2423414738646,
    69.8055269922879, 72.48652313624677, 74.83466152527848, 108.89383033419021, 92.22954155955439,
    128.08026992287915, 165.7098714652956, 199.51301199657237, 146.32762639245925, 122.51343187660666,
    120.14435304198798, 117.77527420736929, 115.40619537275062, 113.03711653813193, 118.66803770351325,
    129.7162596401028, 150.95811482433587, 228.83855826906594, 187.18092544987138, 202.31042202227928,
    233.19757926306764, 279.0752699228791, 288.15240788346176, 277.6156726649528, 335.7534061696657,
    346.3955826906597, 262.1123736075406, 203.1132840616966, 170.6210068551842, 166.63137317909164,
    171.23516709511563, 177.52995072836327, 181.99452013710362, 185.6197814910025, 186.93603256212504,
    197.61898243359033, 205.45987146529555, 186.1371615252784, 166.09221936589537, 144.98958868894596,
    130.54119965724072, 152.96267994858607, 317.1243444730076, 311.6136610968294, 330.10297772065115,
    350.3035796915166, 362.23705227077966, 363.9339567266494, 362.3937660668379, 366.6475685518422,
    374.3506598114823, 378.03899742930577, 372.2117909168807, 274.3835304198799, 310.9961439588688,
    248.31315981148228, 207.2465124250213, 215.40404241645234, 253.83539845758344, 314.589974293059,
    309.5857069408739, 470.97875107112236, 492.86910025706925, 392.21681233933145, 375.35042844901443,
    380.75581191088247, 439.70007712082247, 480.9601328191943, 480.326388174807, 478.9015745501283,
    485.56368466152503, 493.22446872322166, 468.16422879177355, 374.50735218508976, 351.99005998286185,
    372.16179948586097, 389.31162810625517, 424.5357519280203, 333.7240102827761, 263.08161953727483,
    232.8526520994, 310.2076928020564, 295.98587832047974, 282.0730741216794, 268.4692802056554,
    277.17449657240775, 253.86346186803758, 252.80436375321324, 261.68590831191074, 269.4062339331618,
    266.61154241645227, 261.10085904027403, 247.59017566409582, 230.73072622107952, 215.99760068551828,
    204.013680377035, 226.62446015424152, 257.77438946015405, 253.72131962296467, 247.43811053984558,
    363.15490145672646, 386.87169237360735, 393.693624678663, 386.637889888603, 379.58215509854307,
    372.52642030848307, 365.47068551842307, 358.4149507283631, 351.3592159383031, 350.3034811482431,
    352.6327335047127, 353.06313624678637, 352.7228663239072, 350.0735861182517, 356.8596401028275,
    197.03137960582666 ] }

-- test_zlsq1
#guard roundsTo ((zlsq1 zprof 0.0 144.0).map (·.1)) 4 57.3924
#guard roundsTo ((zlsq1 zprof 0.0 144.0).map (·.2)) 4 408.1239

-- test_qtile, test_qerf, test_qerfi
#guard near (qtile [0, 20, 40, 60, 80, 100, 120, 140, 160, 180, 200] 5) 100
#guard near (qtile [0, 20, 40, 60, 80, 100, 120, 140, 160, 180, 200] 8) 40
#guard near (qtile [0, 20, 40, 60, 80, 100, 120, 140, 160, 180, 200] 3) 140
#guard roundsTo (qerf (-1.0)) 4 0.8413
#guard roundsTo (qerf 1.0) 4 0.1587
#guard roundsTo (qerf 10.0) 4 0.0
#guard (match qerfi [0.01, 0.1, 0.5, 0.9, 0.99] with
  | .ok l => l == [2.3268, 1.2817, 0.0, -1.2817, -2.3268] | _ => false)

-- test_aknfe, test_fht, test_ahd, test_h0f, test_curv
#guard roundsTo (aknfe (-1.0)) 2 6.05
#guard roundsTo (aknfe 2.0) 2 16.36
#guard roundsTo (aknfe 3.0) 2 17.99
#guard roundsTo (aknfe 5.0) 2 20.04
#guard roundsTo (aknfe 6.0) 2 20.73
#guard near (fht 372.8075813962142 0.0015012964882592428) (-11.915375775262177)
#guard roundsTo (fht 150.0 20.0) 2 11.05
#guard roundsTo (fht 150.0 1e-6) 2 (-29.96)
#guard roundsTo (ahd 5643.8) 4 97.7575
#guard near (h0f 0.4727387221558643 2.5221451983881447) 34.28154717133048
#guard roundsTo (h0f 2.0 (-1.0)) 2 9.33
#guard roundsTo (h0f 2.0 6.0) 2 18.53
#guard near (.ok (curv (-0.62) 9.19 228900.0 205200.0 143600.0 59097.60805391026)) 0.24344472623622865

-- test_dlthx, test_hzns
#guard roundsTo (dlthx pfl1 2158.5 77672.5) 4 89.2126
def hz := hzns { pfl1 with xi := 498.71794871794873 } 77800.0 ⟨143.9, 8.5⟩ 1.1480007964369815e-07
#guard roundsTo (hz.map (·.1.x0)) 4 (-0.0039)
#guard roundsTo (hz.map (·.1.x1)) 4 0.0005
#guard roundsTo (hz.map (·.2.x0)) 4 55357.6923
#guard roundsTo (hz.map (·.2.x1)) 4 19450.0

-- test_qlrps
def qs := qlrps (1.0 : Float) 1.0 1.0 1 1.0 1.0
#guard near (qs.map (·.wn)) 0.02096436 1e-6
#guard near (qs.map (·.gme)) 1.49634e-7 1e-12
#guard near (qs.map (·.ens)) 0.99989429 1e-6
#guard near (qs.map (·.zgnd.re)) 0.00527592 1e-6
#guard near (qs.map (·.zgnd.im)) (-0.00527533) 1e-6

/-- `setup_prop_to_test_lrprop` (conftest.py 166-201). -/
def lr1 : PropSt Float :=
  { blank with
    d := 77.8, dh := 89.21260017944786, dist := 77800.0, dl := ⟨55357.69230769219, 19450.0000000001⟩,
    ens := 314, ens0 := 314, eps := 15, fmhz := 41.5, gma := 1.57e-07, gme := 1.1480007964369815e-07,
    he := ⟨240.51428613401316, 18.407443074815944⟩, hg := ⟨143.9, 8.5⟩, ipol := 0, klim := some 5,
    klimx := 0, kwx := 0, lvar := 5, mdp := -1, mdvar := some 11, mdvarx := 11,
    pfl := { pfl1 with xi := 498.71794871794873 }, sgm := 0.005,
    the := ⟨-0.0038802364456099045, 0.0004516926187812166⟩, wn := 0.870020964360587,
    zgnd := ⟨3.7527539789276676, 0.2883789630979373⟩ }

def g1 {β : Type} (x : Py (PropSt Float)) (f : PropSt Float → Option β) : Py β := do
  let p ← x
  match f p with
  | some v => pure v
  | none => .error .nonFinite

-- test_adiff (through the set-up of lrprop), test_lrprop
#guard near (g1 (lrprop 0.0 lr1) (·.diff.map (·.wd1))) 1.896920560053003
#guard near (g1 (lrprop 0.0 lr1) (·.diff.map (·.xd1))) 44942.34868188849
#guard near (g1 (lrprop 0.0 lr1) (·.diff.map (·.afo))) 4.473151234696647
#guard near (g1 (lrprop 0.0 lr1) (·.diff.map (·.qk))) 0.2656876709432246
#guard near (g1 (lrprop 0.0 lr1) (·.diff.map (·.aht))) (-29.759740485849974)
#guard near (g1 (lrprop 0.0 lr1) (·.diff.map (·.xht))) 468.05774690549225
#guard near (g1 (lrprop 0.0 lr1) (·.line.map (·.emd))) 0.00022662156216733152
#guard near (g1 (lrprop 0.0 lr1) (·.line.map (·.aed))) 16.610493646360887
#guard near (g1 (lrprop 0.0 lr1) (·.line.map (·.wis))) 0.9571895940004316
#guard near (g1 (lrprop 0.0 lr1) (·.los.map (·.ael))) (-21.07408200434102)
#guard near (g1 (lrprop 0.0 lr1) (·.los.map (·.ak1))) 0.0003779238592743054
#guard near (g1 (lrprop 0.0 lr1) (·.los.map (·.ak2))) 2.2240391804171593
#guard near (g1 (lrprop 0.0 lr1) (·.aref)) 33.37529377642131
#guard (match lrprop 0.0 lr1 with | .ok p => p.kwx == 0 | _ => false)
#guard roundsTo (g1 (lrprop 0.0 { lr1 with dist := 83000.0 }) (·.aref)) 2 35.42
#guard roundsTo (g1 (lrprop 0.0 { lr1 with dist := 83000.0 }) (·.sprep.map (·.etq))) 2 (-0.14)
#guard roundsTo (g1 (lrprop 0.0 { lr1 with dist := 83000.0 }) (·.scat.map (·.dx))) 2 162911.96
#guard roundsTo (g1 (lrprop 0.0 { lr1 with dist := 83000.0 }) (·.scat.map (·.aes))) 2 44.14

-- test_alos
#guard near ((lrInit lr1).bind (alos 7349.240030948456)) 1.5025512186783523

-- test_avar
#guard near ((lrprop 0.0 lr1).bind fun p => (avar 1.2817 0.0 1.2817 p).map (·.1)) 20.877472366318642

/-- `setup_prop_to_test_qlra` (conftest.py 847-866). -/
def ar1 : PropSt Float :=
  { blank with
    hg := ⟨3.3, 1.3⟩, fmhz := 20, dh := 90, ens0 := 301, eps := 15, sgm := 0.001, klimx := 5, ipol := 1,
    mdvarx := 3, gma := 1.57e-07, wn := 0.4192872117400419, ens := 301, gme := 1.1775146373917748e-07,
    zgnd := ⟨0.24855253543510109, -0.014883967087395276⟩ }

-- test_qlra, test_lrprop (area), test_avar (area)
#guard near ((qlra ⟨2, 2⟩ ar1).map (·.he.x0)) 11.42820998659979
#guard near ((qlra ⟨2, 2⟩ ar1).map (·.he.x1)) 5.744074582550858
#guard near ((qlra ⟨2, 2⟩ ar1).map (·.dl.x0)) 11447.432376125844
#guard near ((qlra ⟨2, 2⟩ ar1).map (·.dl.x1)) 7486.975811370029
#guard near ((qlra ⟨2, 2⟩ ar1).map (·.the.x0)) (-0.0007291194560464796)
#guard near ((qlra ⟨2, 2⟩ ar1).map (·.the.x1)) 0.0007278708052345873
#guard (match qlra ⟨2, 2⟩ ar1 with | .ok p => p.mdp == 1 && p.klim == some 5 && p.lvar == 5 | _ => false)
#guard near (g1 ((qlra ⟨2, 2⟩ ar1).bind (lrprop 10000.0)) (·.aref)) 33.45233190346009
#guard near (g1 ((qlra ⟨2, 2⟩ ar1).bind (lrprop 10000.0)) (·.los.map (·.ael))) (-24.11710752026911)
#guard (match (qlra ⟨2, 2⟩ ar1).bind (lrprop 10000.0) with | .ok p => p.kwx == 1 | _ => false)
#guard near (((qlra ⟨2, 2⟩ ar1).bind (lrprop 10000.0)).bind fun p => (avar 0.0 0.0 0.0 p).map (·.1))
  33.44778607772954
#guard near (g1 (((qlra ⟨2, 2⟩ ar1).bind (lrprop 450000.0))) (·.scat.map (·.dx))) 394188.31816884695
#guard near (g1 (((qlra ⟨2, 2⟩ ar1).bind (lrprop 450000.0))) (·.sprep.map (·.h0s))) 40.099300509072805
#guard near (((qlra ⟨2, 2⟩ ar1).bind (lrprop 450000.0)).map (·.ascat1)) 87.31686940710074

-- test_p2p: the whole point-to-point runner
def p2p := itmlogicP2P { blank with fmhz := 41.5, d := 77.8, hg := ⟨143.9, 8.5⟩, ipol := 0 } surface
def p2pLoss (qr qc : Int) : Py Float := do
  let (rows, _, _) ← p2p
  match rows.find? fun r => r.reliability == qr && r.confidence == qc with
  | some r => pure r.loss
  | none => .error .indexError
#guard near (p2pLoss 1 50) 128.5969039310673
#guard near (p2pLoss 1 90) 137.64279211442656
#guard near (p2pLoss 1 10) 119.55101574770802
#guard near (p2pLoss 99 50) 139.74127375512774
#guard near (p2pLoss 99 90) 148.4389165313392
#guard near (p2pLoss 99 10) 131.04363097891627
#guard (match p2p with
  | .ok (rows, _, p) => rows.length == 15 && (p.the.x1 - 0.0004516926187812166).abs < 1e-12 &&
    (p.he.x0 - 240.51428613401316).abs < 1e-9 && (p.dh - 89.21260017944786).abs < 1e-9
  | _ => false)

-- test_area: the whole area runner
def area := itmlogicArea gridDefault ⟨2, 2⟩ { blank with fmhz := 20.0, dh := 102.0, hg := ⟨3.3, 1.3⟩, ipol := 1 }
def areaLoss (d : Float) (qc : Int) : Py Float := do
  let (rows, _) ← area
  match rows.find? fun r => r.distance_km == d && r.confidence == qc with
  | some r => pure r.loss
  | none => .error .indexError
#guard near (areaLoss 10.0 50) 111.69200844812511
#guard near (areaLoss 10.0 90) 121.59437954264777
#guard near (areaLoss 10.0 10) 101.78963735360244
#guard near (areaLoss 500.0 50) 215.27421197676375
#guard near (areaLoss 500.0 90) 221.71014370503855
#guard near (areaLoss 500.0 10) 208.83828024848896

end Itm.Conformance
