import Verif.PyReal
import Verif.Model.State

/-! The documented parameter limits (ITM manual, error marker KWX; comments of `lrprop.py`), over the reals. -/

namespace Itm.Spec
open Itm

/-- Smooth-earth horizon distance of an effective height. -/
noncomputable def smoothHorizon (he gme : ℝ) : ℝ := Real.sqrt (2 * he / gme)

/-- Limits of one terminal: antenna height, horizon angle, horizon distance between 1/10 and 3 times the smooth-earth one. -/
structure TerminalOk (hg he dl the gme : ℝ) : Prop where
  hg : 1 ≤ hg ∧ hg ≤ 1000
  the : |the| ≤ 0.2
  dlmin : 0.1 * smoothHorizon he gme ≤ dl
  dlmax : dl ≤ 3 * smoothHorizon he gme

/-- The same without the upper limit of the horizon distance. -/
structure TerminalOkNoMax (hg he dl the gme : ℝ) : Prop where
  hg : 1 ≤ hg ∧ hg ≤ 1000
  the : |the| ≤ 0.2
  dlmin : 0.1 * smoothHorizon he gme ≤ dl

/-- Limits of the system: wave number (40 MHz … 10 GHz), refractivity, curvature, impedance. -/
structure SystemOk (p : PropSt ℝ) : Prop where
  wn : 0.838 ≤ p.wn ∧ p.wn ≤ 210
  ens : 250 ≤ p.ens ∧ p.ens ≤ 400
  gme : 75e-9 ≤ p.gme ∧ p.gme ≤ 250e-9
  zgnd : |p.zgnd.im| ≤ p.zgnd.re

/-- Limits of a (positive) distance: 1 … 1000 km and not shorter than five times the height difference. -/
structure DistOk (p : PropSt ℝ) (dist : ℝ) : Prop where
  range : 1e3 ≤ dist ∧ dist ≤ 1000e3
  slope : |p.he.x0 - p.he.x1| / 0.2 ≤ dist

/-- A hard limit is violated. -/
def HardViolation (p : PropSt ℝ) (dist : ℝ) : Prop :=
  p.wn < 0.419 ∨ 420 < p.wn ∨ p.hg.x0 < 0.5 ∨ 3000 < p.hg.x0 ∨ p.hg.x1 < 0.5 ∨ 3000 < p.hg.x1 ∨
  p.ens < 250 ∨ 400 < p.ens ∨ p.gme < 75e-9 ∨ 250e-9 < p.gme ∨ p.zgnd.re < |p.zgnd.im| ∨
  (0 < dist ∧ (dist < 1e3 ∨ 2000e3 < dist))

/-- A limit is violated beyond which results are merely doubtful: wave number, antenna heights, distance over 1000 km. -/
def SoftViolation (p : PropSt ℝ) (dist : ℝ) : Prop :=
  p.wn < 0.838 ∨ 210 < p.wn ∨ p.hg.x0 < 1 ∨ 1000 < p.hg.x0 ∨ p.hg.x1 < 1 ∨ 1000 < p.hg.x1 ∨ 1000e3 < dist

/-- The horizon of a terminal is out of its limits: angle over 0.2, distance below 1/10 or above 3 times the smooth-earth one. -/
def HorizonViolation (he dl the gme : ℝ) : Prop :=
  0.2 < |the| ∨ dl < 0.1 * smoothHorizon he gme ∨ 3 * smoothHorizon he gme < dl

/-- The internal parameters are out of their limits: a horizon, or a distance below five times the height difference. -/
def InnerViolation (p : PropSt ℝ) (dist : ℝ) : Prop :=
  HorizonViolation p.he.x0 p.dl.x0 p.the.x0 p.gme ∨ HorizonViolation p.he.x1 p.dl.x1 p.the.x1 p.gme ∨
    (0 < dist ∧ dist < |p.he.x0 - p.he.x1| / 0.2)

open Classical in
/-- The marker for a violated hard limit, a violated limit of an internal parameter, a violated soft limit. -/
noncomputable def level (hard inner soft : Prop) : Int := if hard then 4 else if inner then 3 else if soft then 1 else 0

/-- The documented marker. -/
noncomputable def warning (p : PropSt ℝ) (dist : ℝ) : Int := level (HardViolation p dist) (InnerViolation p dist) (SoftViolation p dist)

end Itm.Spec
