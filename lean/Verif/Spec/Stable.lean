import Verif.Spec.AreaClear
import Verif.Spec.P2PClear
import Verif.Spec.PimterClear

/-! Inputs that differ a little. -/

namespace Itm.Spec
open Itm

/-- Lists of one length whose entries differ by at most `δ`. -/
def Within (δ : ℝ) (a b : List ℝ) : Prop := List.Forall₂ (fun x y => |y - x| ≤ δ) a b

/-- The inputs of a point-to-point prediction: frequency, distance, antenna heights and terrain heights differ by at most `δ`, polarisation is the same. -/
structure NearLink (δ : ℝ) (p : PropSt ℝ) (a : List ℝ) (p' : PropSt ℝ) (a' : List ℝ) : Prop where
  fmhz : |p'.fmhz - p.fmhz| ≤ δ
  d : |p'.d - p.d| ≤ δ
  hg0 : |p'.hg.x0 - p.hg.x0| ≤ δ
  hg1 : |p'.hg.x1 - p.hg.x1| ≤ δ
  ipol : p'.ipol = p.ipol
  z : Within δ a a'

/-- The inputs of an area prediction: frequency, antenna heights, terrain irregularity and grid constants differ by at most `δ`, polarisation is the same. -/
structure NearUser (δ : ℝ) (p : PropSt ℝ) (g : Grid ℝ) (p' : PropSt ℝ) (g' : Grid ℝ) : Prop where
  fmhz : |p'.fmhz - p.fmhz| ≤ δ
  hg0 : |p'.hg.x0 - p.hg.x0| ≤ δ
  hg1 : |p'.hg.x1 - p.hg.x1| ≤ δ
  dh : |p'.dh - p.dh| ≤ δ
  ipol : p'.ipol = p.ipol
  d0 : |g'.d0 - g.d0| ≤ δ
  d1 : |g'.d1 - g.d1| ≤ δ
  ds1 : |g'.ds1 - g.ds1| ≤ δ
  d2 : |g'.d2 - g.d2| ≤ δ
  ds2 : |g'.ds2 - g.ds2| ≤ δ

/-- The inputs of `avar`: reference attenuation, distance, terrain irregularity, wave number and effective heights differ by at most `δ`; codes are the same,
and everything is to be recomputed. -/
structure NearStat (δ : ℝ) (p p' : PropSt ℝ) : Prop where
  lvar : p'.lvar = 5
  klim : p'.klim = p.klim
  mdvar : p'.mdvar = p.mdvar
  aref : ∃ a a', p.aref = some a ∧ p'.aref = some a' ∧ |a' - a| ≤ δ
  dist : |p'.dist - p.dist| ≤ δ
  dh : |p'.dh - p.dh| ≤ δ
  wn : |p'.wn - p.wn| ≤ δ
  he0 : |p'.he.x0 - p.he.x0| ≤ δ
  he1 : |p'.he.x1 - p.he.x1| ≤ δ

end Itm.Spec
