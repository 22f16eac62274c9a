import Verif.Spec.Codes
import Verif.PyReal
import Mathlib.Analysis.SpecialFunctions.Pow.Real
import Mathlib.Analysis.SpecialFunctions.Log.Basic

/-! The statistics of the ITM (section 5 of the algorithm description), as one formula over the reals: no dictionary, no caches.
`k` climate (1 … 7), `m` kind of variability, `noLoc`, `noSit` eliminated components, `d` distance, `dh` terrain irregularity,
`h₀ h₁` effective heights, `w` wave number. -/

namespace Itm.Spec

/-- Entry of the published tables: line `i`, climate `k`. -/
noncomputable def entry (k : ℤ) (i : ℕ) : ℝ := ((climateCols (α := ℝ)).getD i []).getD (k - 1).toNat 0

/-- The climate function of the distance, with the five constants that start at line `i`. -/
noncomputable def climCurve (k : ℤ) (i : ℕ) (de : ℝ) : ℝ :=
  (entry k i + entry k (i + 1) / (1 + ((de - entry k (i + 3)) / entry k (i + 4)) ^ 2)) *
    ((de / entry k (i + 2)) ^ 2 / (1 + (de / entry k (i + 2)) ^ 2))

/-- A frequency gain, with the three constants that start at line `i`. -/
noncomputable def freqCurve (k : ℤ) (i : ℕ) (w : ℝ) : ℝ :=
  entry k i + entry k (i + 1) / (1 + (entry k (i + 2) * Real.log (0.133 * w)) ^ 2)

/-- The distance where scatter and diffraction would be about equal over a smooth earth of 9000 km. -/
noncomputable def crossDist (h₀ h₁ w : ℝ) : ℝ :=
  √(2 * 9e6 * h₀) + √(2 * 9e6 * h₁) + (575.7e12 / w) ^ (1 / 3 : ℝ)

/-- The effective distance. -/
noncomputable def effectiveDist (d h₀ h₁ w : ℝ) : ℝ :=
  if d < crossDist h₀ h₁ w then d / crossDist h₀ h₁ w * 130e3 else d - crossDist h₀ h₁ w + 130e3

/-- Standard deviation of time variability, as a function of the deviate: below, above and far above the median. -/
noncomputable def sigmaT (k : ℤ) (de w z : ℝ) : ℝ :=
  if z < 0 then climCurve k 5 de * freqCurve k 17 w
  else
    let up := climCurve k 10 de * freqCurve k 20 w
    if z ≤ entry k 16 then up else (up * entry k 16 + up * entry k 15 * (z - entry k 16)) / z

/-- Standard deviation of location variability. -/
noncomputable def sigmaL (noLoc : Bool) (d dh w : ℝ) : ℝ :=
  if noLoc then 0
  else
    let x := w * (dh * (1 - 0.8 * Real.exp (-d / 50e3)))
    10 * x / (x + 13)

/-- Variance of the situation variability, given the time and location deviations `yt`, `yl` in decibels. -/
noncomputable def situationVar (noSit : Bool) (de yt yl zc : ℝ) : ℝ :=
  (if noSit then 0 else (5 + 3 * Real.exp (-de / 100e3)) ^ 2) + yt ^ 2 / (7.8 + zc ^ 2) + yl ^ 2 / (24 + zc ^ 2)

/-- The deviation from the median in each kind of variability: single message (0), accidental (1), mobile (2), broadcast (3). -/
noncomputable def deviation (k m : ℤ) (noLoc noSit : Bool) (d dh de w zt zl zc : ℝ) : ℝ :=
  let s := sigmaT k de w
  let l := sigmaL noLoc d dh w
  let v := fun yt yl => situationVar noSit de yt yl zc
  if m = 0 then √(s zc ^ 2 + l ^ 2 + v (s zc * zc) (l * zc)) * zc
  else if m = 1 then s zt * zt + √(l ^ 2 + v (s zt * zt) (l * zc)) * zc
  else if m = 2 then √(s zt ^ 2 + l ^ 2) * zt + √(v (s zt * zt) (l * zt)) * zc
  else s zt * zt + l * zl + √(v (s zt * zt) (l * zl)) * zc

/-- The quantile of attenuation, with the softening of negative values. -/
noncomputable def quantile (k m : ℤ) (noLoc noSit : Bool) (d dh h₀ h₁ w aref zt zl zc : ℝ) : ℝ :=
  let de := effectiveDist d h₀ h₁ w
  let a := aref - climCurve k 0 de - deviation k m noLoc noSit d dh de w zt zl zc
  if a < 0 then a * (29 - a) / (29 - 10 * a) else a

/-- The deviates a kind of variability uses. -/
def usedDeviates {β : Type} (m : ℤ) (zt zl zc : β) : List β :=
  if m = 0 then [zc] else if m = 3 then [zt, zl, zc] else [zt, zc]

end Itm.Spec
