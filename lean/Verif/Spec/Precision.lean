import Verif.PyReal
import Verif.Model.State
import Mathlib.Analysis.Asymptotics.Defs
import Mathlib.Order.Filter.AtTopBot.Basic

/-! Arithmetics of growing precision. Much less is asked of a single arithmetic than in `Spec/Rounding`, so that floating-point numbers of any
number of digits and fixed-point numbers qualify. -/

namespace Itm.Spec
open Itm Filter Asymptotics

/-- `r` is a finite result close to `x`: errors up to `ε` of the magnitude, or of 1. -/
def Accurate {α : Type} (fin : α → Prop) (val : α → ℝ) (ε : ℝ) (r : α) (x : ℝ) : Prop :=
  |x| ≤ 1 / ε → fin r ∧ |val r - x| ≤ ε * (1 + |x|)

/-- An arithmetic of precision `ε`: some numbers are finite (`fin`) and have values (`val`); all operations on finite numbers are accurate
unless the exact result exceeds `1/ε`; integers, comparisons, signs, rounding down and quotients of zero are exact; `round(x, 4)` is the accurate
decimal. -/
structure Arith (α : Type) [PyNum α] (ε : ℝ) where
  fin : α → Prop
  val : α → ℝ
  lit : ∀ m s e, Accurate fin val ε (OfScientific.ofScientific m s e) (OfScientific.ofScientific m s e)
  whole : ∀ m s e (n : ℤ), (OfScientific.ofScientific m s e : ℝ) = n → |(n : ℝ)| ≤ 1 / ε →
    fin (OfScientific.ofScientific m s e) ∧ val (OfScientific.ofScientific m s e) = n
  ofInt : ∀ n : ℤ, |(n : ℝ)| ≤ 1 / ε → fin (PyNum.ofInt n) ∧ val (PyNum.ofInt n) = n
  add : ∀ a b, fin a → fin b → Accurate fin val ε (a + b) (val a + val b)
  sub : ∀ a b, fin a → fin b → Accurate fin val ε (a - b) (val a - val b)
  mul : ∀ a b, fin a → fin b → Accurate fin val ε (a * b) (val a * val b)
  div : ∀ a b, fin a → fin b → val b ≠ 0 → Accurate fin val ε (a / b) (val a / val b)
  zdiv : ∀ a b, fin a → fin b → val a = 0 → val b ≠ 0 → val (a / b) = 0
  neg : ∀ a, fin a → fin (-a) ∧ val (-a) = -val a
  abs : ∀ a, fin a → fin (PyNum.abs a) ∧ val (PyNum.abs a) = |val a|
  lt : ∀ a b, fin a → fin b → (a < b ↔ val a < val b)
  le : ∀ a b, fin a → fin b → (a ≤ b ↔ val a ≤ val b)
  sqrt : ∀ a, fin a → 0 ≤ val a → Accurate fin val ε (PyNum.sqrt a) (√(val a))
  exp : ∀ a, fin a → Accurate fin val ε (PyNum.exp a) (Real.exp (val a))
  log : ∀ a, fin a → 0 < val a → Accurate fin val ε (PyNum.log a) (Real.log (val a))
  sin : ∀ a, fin a → Accurate fin val ε (PyNum.sin a) (Real.sin (val a))
  cos : ∀ a, fin a → Accurate fin val ε (PyNum.cos a) (Real.cos (val a))
  rpow : ∀ a b, fin a → fin b → 0 < val a → Accurate fin val ε (PyNum.rpow a b) (val a ^ val b)
  floor : ∀ a, fin a → PyNum.floor a = ⌊val a⌋
  round4 : ∀ a, fin a → Accurate fin val ε (PyNum.round4 a) (PyNum.round4 (val a))

/-- A family of arithmetics whose errors `ε` tend to 0 along `l`. -/
structure Refining {ι : Type} (l : Filter ι) (α : ι → Type) [∀ i, PyNum (α i)] (ε : ι → ℝ) where
  arith : ∀ i, Arith (α i) (ε i)
  pos : ∀ i, 0 < ε i
  tends : Tendsto ε l (nhds 0)

/-- The numbers `a` of the family approximate `x` with an error of the order of the precision: finally finite, and off by at most a constant times `ε`. -/
def Refining.Approx {ι : Type} {l : Filter ι} {α : ι → Type} [∀ i, PyNum (α i)] {ε : ι → ℝ} (F : Refining l α ε) (a : ∀ i, α i) (x : ℝ) : Prop :=
  (∀ᶠ i in l, (F.arith i).fin (a i)) ∧ (fun i => (F.arith i).val (a i) - x) =O[l] ε

/-- The prepared dictionaries `P` hold approximations of what `p` holds: heights, horizons, surface and ground. -/
structure Refining.Inputs {ι : Type} {l : Filter ι} {α : ι → Type} [∀ i, PyNum (α i)] {ε : ι → ℝ} (F : Refining l α ε) (P : ∀ i, PropSt (α i)) (p : PropSt ℝ) :
    Prop where
  mdp : ∀ i, (P i).mdp = p.mdp
  hg0 : F.Approx (fun i => (P i).hg.x0) p.hg.x0
  hg1 : F.Approx (fun i => (P i).hg.x1) p.hg.x1
  he0 : F.Approx (fun i => (P i).he.x0) p.he.x0
  he1 : F.Approx (fun i => (P i).he.x1) p.he.x1
  dl0 : F.Approx (fun i => (P i).dl.x0) p.dl.x0
  dl1 : F.Approx (fun i => (P i).dl.x1) p.dl.x1
  the0 : F.Approx (fun i => (P i).the.x0) p.the.x0
  the1 : F.Approx (fun i => (P i).the.x1) p.the.x1
  wn : F.Approx (fun i => (P i).wn) p.wn
  dh : F.Approx (fun i => (P i).dh) p.dh
  ens : F.Approx (fun i => (P i).ens) p.ens
  gme : F.Approx (fun i => (P i).gme) p.gme
  zre : F.Approx (fun i => (P i).zgnd.re) p.zgnd.re
  zim : F.Approx (fun i => (P i).zgnd.im) p.zgnd.im

end Itm.Spec
