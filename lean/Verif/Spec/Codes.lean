import Verif.Model.State

/-! Specification of the integer codes of the variability routine (ITM manual, `mdvar` and `klim`). -/

namespace Itm.Spec
open Itm

/-- `md` is the documented code of kind of variability `m` (0 single message, 1 accidental, 2 mobile, 3 broadcast),
`+10` when location variability is eliminated (`a`), `+20` when situation variability is eliminated (`b`). -/
def ModeCode (md m : Int) (a b : Bool) : Prop :=
  0 ≤ m ∧ m ≤ 3 ∧ md = m + (if a then 10 else 0) + (if b then 20 else 0)

/-- The next `avar` call on `p` works in kind `m`: `mdvar` is about to be decoded to `m`, or was decoded to `m` before. -/
def InMode {α : Type} (p : PropSt α) (m : Int) : Prop :=
  (3 < p.lvar ∧ ∃ md a b, p.mdvar = some md ∧ ModeCode md m a b) ∨
  (p.lvar ≤ 3 ∧ ∃ v, p.vmode = some v ∧ v.kdv = m)

/-- The documented climates. -/
def ClimateCode (k : Int) : Prop := 1 ≤ k ∧ k ≤ 7

/-- The published climate tables, one line per constant, columns = climates 1 … 7 (as printed, `avar.py` 38-60). -/
def climateCols {α : Type} [PyNum α] : List (List α) :=
  [ [-9.67, -0.62, 1.26, -9.21, -0.62, -0.39, 3.15],
    [12.7, 9.19, 15.5, 9.05, 9.19, 2.86, 857.9],
    [144.9e3, 228.9e3, 262.6e3, 84.1e3, 228.9e3, 141.7e3, 2222.0e3],
    [190.3e3, 205.2e3, 185.2e3, 101.1e3, 205.2e3, 315.9e3, 164.8e3],
    [133.8e3, 143.6e3, 99.8e3, 98.6e3, 143.6e3, 167.4e3, 116.3e3],
    [2.13, 2.66, 6.11, 1.98, 2.68, 6.86, 8.51],
    [159.5, 7.67, 6.65, 13.11, 7.16, 10.38, 169.8],
    [762.2e3, 100.4e3, 138.2e3, 139.1e3, 93.7e3, 187.8e3, 609.8e3],
    [123.6e3, 172.5e3, 242.2e3, 132.7e3, 186.8e3, 169.6e3, 119.9e3],
    [94.5e3, 136.4e3, 178.6e3, 193.5e3, 133.5e3, 108.9e3, 106.6e3],
    [2.11, 6.87, 10.08, 3.68, 4.75, 8.58, 8.43],
    [102.3, 15.53, 9.60, 159.3, 8.12, 13.97, 8.19],
    [636.9e3, 138.7e3, 165.3e3, 464.4e3, 93.2e3, 216.0e3, 136.2e3],
    [134.8e3, 143.7e3, 225.7e3, 93.1e3, 135.9e3, 152.0e3, 188.5e3],
    [95.6e3, 98.6e3, 129.7e3, 94.2e3, 113.4e3, 122.7e3, 122.9e3],
    [1.224, 0.801, 1.380, 1.000, 1.224, 1.518, 1.518],
    [1.282, 2.161, 1.282, 20.0, 1.282, 1.282, 1.282],
    [1.0, 1.0, 1.0, 1.0, 0.92, 1.0, 1.0],
    [0.0, 0.0, 0.0, 0.0, 0.25, 0.0, 0.0],
    [0.0, 0.0, 0.0, 0.0, 1.77, 0.0, 0.0],
    [1.0, 0.93, 1.0, 0.93, 0.93, 1.0, 1.0],
    [0.0, 0.31, 0.0, 0.19, 0.31, 0.0, 0.0],
    [0.0, 2.00, 0.0, 1.79, 2.00, 0.0, 0.0] ]

/-- Column `j` of the tables is the climate record `c`, field by field. -/
def IsColumn {α : Type} [PyNum α] (j : Nat) (c : Climate α) : Prop :=
  climateCols.map (fun l => l[j]?) = [some c.cv1, some c.cv2, some c.yv1, some c.yv2, some c.yv3, some c.csm1, some c.csm2, some c.ysm1, some c.ysm2, some c.ysm3, some c.csp1, some c.csp2, some c.ysp1, some c.ysp2, some c.ysp3, some c.csd1, some c.zd, some c.cfm1, some c.cfm2, some c.cfm3, some c.cfp1, some c.cfp2, some c.cfp3]

end Itm.Spec
