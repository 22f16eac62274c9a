import Verif.PyNum

/-!
The dictionary `prop`.

Keys that the code always writes together form one optional group (`none` = never written).
`None`-ness of a group is exactly absence of its keys. Keys that the user (or a preparatory
routine called before any read) supplies are plain fields; forgetting them is not modelled.
-/

namespace Itm

/-- Terrain profile list `[np, xi, z_0, z_1, …]` (`references/itm_man.txt`, CALL QLRPFL;
built in `scripts/p2p.py` 82-88, 133): `np` intervals of length `xi`. -/
structure Pfl (α : Type) where
  np : Int
  xi : α
  z : List α
deriving Repr

/-- The profile as the flat Python list. -/
def Pfl.flat {α : Type} [PyNum α] (p : Pfl α) : List α := PyNum.ofInt p.np :: p.xi :: p.z

/-- `pfl[i]`. -/
def Pfl.get {α : Type} [PyNum α] (p : Pfl α) (i : Int) : Py α := pyGet p.flat i

/-- `len(pfl)`. -/
def Pfl.len {α : Type} (p : Pfl α) : Int := p.z.length + 2

/-- Keys `dls`, `dlsa`, `dla`, `tha` (`lrprop.py` 37-49). -/
structure Horizon (α : Type) where
  dls : Pair α
  dlsa : α
  dla : α
  tha : α
deriving Repr

/-- Keys written by `adiff(0, prop)` (`adiff.py` 36-69): `qk, wd1, xd1, afo, aht, xht`. -/
structure DiffC (α : Type) where
  qk : α
  wd1 : α
  xd1 : α
  afo : α
  aht : α
  xht : α
deriving Repr

/-- Keys `dmin, xae, emd, aed, wis` (`lrprop.py` 84-101). -/
structure DiffLine (α : Type) where
  dmin : α
  xae : α
  emd : α
  aed : α
  wis : α
deriving Repr

/-- Keys `ael, ak1, ak2` (`lrprop.py` 134-157). -/
structure LosC (α : Type) where
  ael : α
  ak1 : α
  ak2 : α
deriving Repr

/-- Keys `ad, rr, etq, h0s` (`lrprop.py` 169-180). -/
structure ScatPrep (α : Type) where
  ad : α
  rr : α
  etq : α
  h0s : α
deriving Repr

/-- Keys `ems, dx, aes` (`lrprop.py` 190-205). -/
structure ScatC (α : Type) where
  ems : α
  dx : α
  aes : α
deriving Repr

/-- The 23 climate constants of `avar.py` 71-93. -/
structure Climate (α : Type) where
  cv1 : α
  cv2 : α
  yv1 : α
  yv2 : α
  yv3 : α
  csm1 : α
  csm2 : α
  ysm1 : α
  ysm2 : α
  ysm3 : α
  csp1 : α
  csp2 : α
  ysp1 : α
  ysp2 : α
  ysp3 : α
  csd1 : α
  zd : α
  cfm1 : α
  cfm2 : α
  cfm3 : α
  cfp1 : α
  cfp2 : α
  cfp3 : α
deriving Repr

/-- Keys `kdv, ws, wl` (`avar.py` 97-110). -/
structure VarMode where
  kdv : Int
  ws : Bool
  wl : Bool
deriving Repr, DecidableEq

/-- Keys `gm, gp` (`avar.py` 114-124). -/
structure FreqGain (α : Type) where
  gm : α
  gp : α
deriving Repr

/-- Keys `vmd, sgtm, sgtp, sgtd, tgtd, sgl, vs0` (`avar.py` 140-169). -/
structure VarC (α : Type) where
  vmd : α
  sgtm : α
  sgtp : α
  sgtd : α
  tgtd : α
  sgl : α
  vs0 : α
deriving Repr

/-- The dictionary `prop`. -/
structure PropSt (α : Type) where
  -- user parameters (`scripts/p2p.py` 356-369, `scripts/area.py` 281-295)
  fmhz : α
  d : α
  ipol : Int
  hg : Pair α
  -- system parameters
  eps : α
  sgm : α
  ens0 : α
  gma : α
  wn : α
  dh : α
  ens : α
  gme : α
  zgnd : Cx α
  klimx : Int
  mdvarx : Int
  pfl : Pfl α
  -- path parameters
  he : Pair α
  dl : Pair α
  the : Pair α
  dist : α
  mdp : Int
  -- markers
  kwx : Int
  lvar : Int
  mdvar : Option Int
  klim : Option Int
  -- computed by `lrprop`
  hor : Option (Horizon α)
  diff : Option (DiffC α)
  line : Option (DiffLine α)
  wlos : Bool
  wscat : Bool
  ascat1 : α
  los : Option (LosC α)
  sprep : Option (ScatPrep α)
  scat : Option (ScatC α)
  aref : Option α
  -- computed by `avar`
  clim : Option (Climate α)
  vmode : Option VarMode
  fgain : Option (FreqGain α)
  dexa : Option α
  varc : Option (VarC α)
deriving Repr

end Itm
