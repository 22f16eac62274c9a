# Formal model of edwardoughton/itmlogic in Lean 4 — design

## 1. What is modelled, and over which numbers

itmlogic is a numerical program over Python floats with one mutable dictionary (`prop`).
Every function of `src/itmlogic` and the pure part of `scripts/` is modelled **once**,
polymorphically over a class of number types (`Verif/PyNum.lean`, class `PyNum`), with Python
exceptions as values (`Except PyErr`).  The one definition is used four ways:

| number type | use |
|---|---|
| any `α` with `PyNum α` (no laws assumed) | control-flow, state and history theorems. Because no arithmetic law is used, they hold in particular for IEEE doubles |
| `ℝ` (`Verif/PyReal.lean`) | numerical theorems: bounds, monotonicity, continuity, optimality, reciprocity. These are theorems about exact arithmetic; rounding, overflow, NaN and signed zero are **not** in them |
| any `α` with the laws of `Spec/Rounding` | what survives rounding (C74 on). The laws say that every basic operation on finite numbers is the exact result rounded by a monotone odd rounding of relative error at most `2^-50` (plus a tiny absolute one) that leaves 53-digit numbers alone, that comparisons are exact, and that `exp`, `log`, `**` are accurate to the same relative error. Three instances are proved: IEEE 754 doubles with any accurate library (`Spec/Binary64`, C101), binary numbers chopped to 53 digits (`Lemmas/Chop`) and `ℝ`. What remains an assumption: Python floats are those doubles, and the machine's `exp`, `log`, `**` are accurate to four units in the last place |
| any family of arithmetics with the laws of `Spec/Precision` | what the results tend to as the precision grows (C95 on). Asked of each arithmetic: every operation on finite numbers is accurate to `ε` (relative, or absolute below 1) unless the result exceeds `1/ε`; comparisons, signs, integers and rounding down are exact; `ε` tends to 0. Instance: fixed-point numbers rounded down to `n` binary places (`Lemmas/Fixed`) |
| `Float` (`Verif/PyFloat.lean`) | executing the model on the inputs of the repository's own tests (`Verif/Conformance.lean`). These runs are *tests of the model's fidelity*, never used as proofs |

Python semantics that are modelled explicitly:

* `a / b` raises `ZeroDivisionError` when `b == 0` (`PyErr.zeroDivision`); with a numpy scalar operand the
  code would produce inf/nan plus a warning instead — the model uses the same error value for both.
* `math.sqrt(x)`, `x < 0`: `ValueError`. `np.log(x)`, `x <= 0`: the code continues with -inf/nan; the
  model stops with `PyErr.nonFinite`. `x ** y` with `x < 0` and fractional `y`: Python returns a complex number which
  makes the following comparison / `math.exp` raise `TypeError`; the model stops with `PyErr.typeError`.
* list indexing with negative wrap-around and `IndexError`; missing dictionary keys → `PyErr.keyError`
  for every key that is *computed* by the library (user inputs are record fields and always present);
  unbound local variable → `PyErr.unboundLocal`.
* `max(a,b)`/`min(a,b)` return the first argument unless the second is strictly better.
* complex numbers are pairs; division is Smith's algorithm as in CPython (numpy multiplies by the reciprocal of the same
  denominator), `abs` the root of the sum of squares (CPython and numpy: `hypot`), the square root is the algorithm of CPython's
  `cmath_sqrt` without the rescaling of subnormal numbers. Over ℝ division is the formula of the schoolbook (`cxdiv_real`) and the root is given by
  the half-angle formulas (`cxsqrt_real`).
* `int(x)` truncation, `np.floor`, `round(x, 4)`, `round(x)` (half to even).
* dictionary mutation: a function taking `prop` returns the new record. Keys that the code always writes
  together are grouped into one optional sub-record (absent = never written). The dictionary contents after
  a raised exception are not modelled.

## 2. Not modelled

Floating-point rounding/overflow in the ℝ theorems; numpy warnings; DEM/raster access (rasterio, rasterstats, pyproj, shapely,
fiona), configparser, printing, drawing, the bytes of shapefiles (their records and schema are modelled). Of `terrain_module`, `determine_num_samples`, `interdecile_range`, `terrain_area` (from the rectangle of pixels on)
and `terrain_p2p` are modelled; in the latter the elevation model is an arbitrary partial function of the coordinates, and geodesic length and
length in degrees are parameters. `csv_writer` is modelled down to the characters of the file; number formatting is a parameter. The `__main__`
blocks of `area.py`, `p2p.py` and `p2p_2tiles.py` are modelled from the read rasters to the contents of the files (`Model/Programs`); that of
`area_2tiles.py` is the one of `area.py` with other paths and sites. Of `vis.py` the way from the table to the curves and their legend is
modelled (`Model/Vis`), with pandas' `set_index().unstack()` and matplotlib's `legend(texts)` taken as documented; reading the file back is not. Files left behind by a run that raises and the plots of `pimter.py` are not
modelled.

## 3. Layout

* `Verif/PyNum.lean` number class, errors, Python primitives; `PyReal.lean`, `PyFloat.lean` instances
* `Verif/Model/*.lean` the model, one definition per function of the code, each citing file and lines
* `Verif/Conformance.lean` Float runs against the expected values in `/repo/tests` (tests, not proofs)
* `Verif/Spec/*.lean` small independent specifications (least-squares error, elevation angle, order statistic …)
* `Verif/Lemmas/*.lean` helper lemmas; `Verif/Props/*.lean` the property theorems with non-vacuity examples

## 4. Properties and how each is proved

| id | model | proof |
|---|---|---|
| C01 | `qtile` = index into descending merge sort | permutation + sortedness, counting lemma; any linear order |
| C02, C03 | `qerf` over ℝ | polynomial positivity/monotonicity on (0,1], `exp` monotone, case split on branches |
| C04 | `qerfi` any arithmetic for shape; ℝ for totality | list induction |
| C05 | `qerfi` over ℝ | rational function monotone (`nlinarith`), rounding monotone and odd |
| C06 | conversion step of the three runners | theorem for p2p/area, refutation for pimter |
| C07 | `avar` + change operations, any arithmetic | invariant "cached group = recomputed group unless lvar says stale", induction over histories |
| C08, C11, C13, C14 | `avar`, any arithmetic | case analysis |
| C09, C10, C12, C15 | `avar` over ℝ | square-root inequalities; convexity-free algebra |
| C16 | all four entry points, any arithmetic | step lemma + induction over histories |
| C17 | warning part of `lrprop` | iff-characterisation; refutation for `dl[0]` upper limit |
| C18, C21, C22 | `lrprop`, any arithmetic (C18 ℝ) | case analysis, induction over sweeps |
| C19, C24, C25 | `lrprop` coefficients over ℝ | algebra; strict concavity of log |
| C20 | sweep of `lrprop` | refutation (stale aref) + theorem for distances beyond dlsa and for the first LOS distance |
| C23 | `lrprop` over ℝ, terminal swap | stage-by-stage symmetry; refutation for kwx |
| C26–C31 | leaf functions over ℝ | real analysis |
| C32 | `ascat` | refutation: sentinel never survives |
| C33, C34 | `zlsq1` over ℝ | finite sums, completing the square; crash theorem for degenerate windows |
| C35, C36 | `hzns` over ℝ | loop invariant = running maximum; reversal of the range |
| C37 | `dlthx` over ℝ | resampling loop invariant, least-squares equivariance, order statistics |
| C38–C41 | `qlra`, `qlrpfl`, `qlrps` over ℝ | inequalities; refutation for C40's LOS branch |
| C42–C48 | runner models | composition of the above; refutations where the code deviates |
| C49–C51 | terrain helpers over ℝ | inequalities through rounding; percentiles by counting in a sorted list |
| C52 | campaign runner, any totally ordered arithmetic | frame lemmas of `qlrpfl`/`avar`; loop induction |
| C53 | all three runners over ℝ | every division, root, power and logarithm on the way shown to be in its domain |

| C54 | `qerf` over ℝ against the integral of the normal density (`Spec/Normal`) | derivative sign of the error on certified intervals (Bernstein form), Mills bounds in the tail |
| C55 | `qerfi` over ℝ against the same integral | C54's method on the residual `tail(T(q)) - q`; polynomial certificates |
| C56 | `avar` over ℝ against the published quantile formula (`Spec/Quantile`) | stage lemmas; history invariant of C07 |
| C57 | `lrprop` over ℝ against the published piecewise reference attenuation (`Spec/Reference`) | stage lemmas; state invariant for continued sweeps |
| C58 | `qlrpfl` over ℝ against the published path preparation (`Spec/Path`) | composition of C33, C35, C37 |
| C59 | rows of the three runners over ℝ against `Link.loss` (`Spec/EndToEnd`) | composition of C56, C57, C58 and the setup lemmas |
| C60 | `itmlogicP2PFull` (both assignments of the lists, header), any arithmetic | loop inductions against the runner of C42 |
| C61 | `terrainP2P` with the elevation model as an arbitrary partial function, over ℝ | mapM characterisation; C49, C50; algebra |
| C62 | `csvWriter` on texts as character lists, against an independent RFC 4180 reader (`Spec/Csv`) | induction over cells and lines |
| C63 | `itmlogic_p2p` over ℝ on a profile and its shift | equivariance of fit, horizons and irregularity; relational lemma over the run |
| C64 | `itmlogic_p2p` over ℝ on a profile and its reversal | mirror symmetry of the path preparation (`Spec/PathSym`), C23, symmetry of the variability; refutations for ties and for clear sloping paths |
| C65 | `lrprop` at a first call and `itmlogic_p2p`, over ℝ | domains of every logarithm, root and quotient from the limits (`Spec/Answered`); the divisions by zero are characterised by the reference spec; `C65_coincidence` exhibits a link within the limits that divides by zero, `C65_outside` gives a nan outside the limits |
| C66 | `itmlogic_area` (`qlra`, every step of the sweep), over ℝ | limits of the prepared link from the ranges of the inputs, then an induction over the sweep with "ok or division by zero" as invariant; smooth earth: the diffraction line is positive at the horizon and steeper than scatter, so no coincidence (`Lemmas/SmoothSight`) |
| C67 | the first call of `lrprop` and the three runners, over ℝ | every success is taken apart down to the roots, powers, logarithms and quotients; their domains force the signs (`Spec/Usable`) |
| C68 | `avar` (through C56) and `itmlogic_area` (through C59), over ℝ | continuity of the published quantile, reference attenuation and loss piece by piece with agreement at the seams (`Lemmas/QuantileCont`); a factor that jumps at the median is multiplied by a deviate that vanishes there |
| C69 | `run_itmlogic` of `pimter.py`, over ℝ | one turn from C39 and C65, the loop by induction; turns do not influence one another (C52) |
| C70 | `__main__` of `area.py` (`Model/Programs`), over ℝ | rows of the loop exactly, with the stale attenuation of line-of-sight rows (`Lemmas/AreaExact`); file from C62, distances from C46, irregularity from C51; the horizon of the shipped antennas lies between 20 and 30 km. Refuted for 20 km over irregular terrain |
| C71 | `lrprop` on every link, `__main__` of `area.py`, over ℝ | `ascat` with the overwritten sentinel gives the closed form of `Spec/Unbarred` (`Lemmas/ScatExact`); the flat link of the program by interval bounds (`Lemmas/SmoothLink`, `Lemmas/FlatLink`). Refuted for the program over flat terrain |
| C72 | `__main__` of `p2p.py` and `p2p_2tiles.py` (`Model/Programs`), over ℝ | sample points from C61, table from C62, rows from C60 and C73. Refuted: the table does not depend on the measured terrain, nor does it carry the measured distance |
| C73 | `itmlogic_p2p` on the shipped profile, over ℝ | horizons by integer comparison of the 157 heights (kernel evaluation), foreground fits by integer sums, then interval bounds show that the diffraction line starts above zero (`Lemmas/DocsPath`, `Lemmas/DocsLink`); C65, C59 and C64 apply. Refuted: the report says line of sight although the terrain obstructs the path |
| C74 | `qerf`, `qerfi` over any arithmetic with the laws of `Spec/Rounding` | interval-free error calculus (`Lemmas/Near`): every operation carries a bound on the distance to the exact result; monotonicity of the rounding to four digits |
| C75 | the quantile formula of `avar` over any arithmetic with the laws of `Spec/Rounding` | error calculus with absolute and relative bounds (`Lemmas/NearRel`, `Lemmas/AvarRound`); slope of the exact formula in the confidence deviate bounded below |
| C76 | `avar` with its caches over any arithmetic with the laws of `Spec/Rounding`, against `avar` over ℝ on a dictionary of the same values (`Spec/RoundLink`) | error calculus through the climate constants, gains and coefficients (`ClimRound`, `GainRound`, `VarRound`, `VarCoefRound`, `CoefRound`), cache invariant on both sides; order from slopes of the exact formula |
| C77 | `itmlogicP2PAt` over any arithmetic with the laws of `Spec/Rounding`, from the prepared link on (`qlrpfl` itself is not followed through rounding) | C74 for the deviates, C76 for the quantiles, free-space loss by the error calculus; the documented run shows the hypotheses are met |
| C78 | `dlthx` and the prepared dictionary of the runner, over ℝ | the fitted line has no larger squared error than the constant line at mid height; the two trimmed tails bound it from below (`Lemmas/Relief`) |
| C79 | `hzns` over ℝ, two runs | from the horizon specification of C35: a rise costs each point `δ` over its distance, so nearer points lose more |
| C80 | `avar`, `curv`, the two runners, over ℝ | bound of each climate's curves by Cauchy's inequality on the bump against the growing factor; monotone deviates reduce to a corner of the cube (`Lemmas/Band`) |
| C81 | `freeSpace`, `areaSetup`, `p2pSetup`, `qlrpflPrep` and the two runners over ℝ, against `friis`, `lightSpeed`, `earthRadius` (Spec/Physics), which know nothing of the model | ln 10, π and two exponentials enclosed by series with proved remainders; the runner's distance is shown to be the user's by following `qlrpflPrep` |
| C82 | `itmlogicAreaAt`, `itmlogicP2PAt`, `avar`, `qerfi` over any `PyNum` with a `Spec.Rounding` | invariant of the loop giving the groups; C74, C76 for deviates and quantiles; C80 applied to the exact dictionary with the same values |
| C83 | `hzns` over any `PyNum` with a `Spec.Rounding`, against `Spec/NearHorizon` | loop invariant with error bounds for the two running distances, both angles and the gate; comparison with C35 through the specification |
| C84 | `avar` over ℝ, rows of the two runners | the deviation is odd in the confidence deviate; the softening of negative values is convex (tangents); antisymmetry of `qerfi` (C05) |
| C85 | `hzns` over ℝ, two runs | from the horizon specification of C35; a point between two samples is seen under at most the larger angle plus the chord error of the parabola |
| C86 | `zlsq1`, `dlthx`, `qlrpflPrep` over ℝ on two profiles | the fit is linear in the heights and its energy is at most that of the errors (normal equations); resampling is an average; an order statistic is 1-Lipschitz in the sup norm; the window of clear paths does not depend on the heights |
| C87 | `hzns`, `qlrps` over ℝ, two runs | from the horizon specification of C35: a change of curvature costs each point an amount proportional to its distance, so the two maxima bound each other from both sides; C41 for the curvature |
| C88 | `avar` over ℝ, two runs on dictionaries that differ in `aref` or `mdvar` | the published formula (C56); the slope of the softening lies between 1/10 and 1; square roots of sums against sums of square roots |
| C89 | `zlsq1`, `dlthx`, `qtile` over any `α` with the rounding laws | forward error analysis of the sums (positions and offsets are exact half-integers), invariant of the resampling loop (cell number plus offset tracks the exact position), interpolation in a neighbouring cell, order statistics are 1-Lipschitz; the window is chosen among those rounding cannot tell apart |
| C90 | `qlrpflPrep`, `qlra`, `lrprop` in both modes, `avar` over ℝ | straight terrain: irregularity 0 (C37), fitted line is the terrain (C33), clear because `D((D-x)a² + xb²) - x(D-x)(a+b)²` is a square; set-up independent of the mode when the numerator of the weight is 0; then `runC_rel`, `avar_rel`. Falling terrain: `C90_falling` from C40. |
| C91 | `vis.py` (`Model/Vis`: pivot, order of columns, legend, axis end) on tables over any ordered axis; with the drivers over ℝ | membership in sorted duplicate-free lists; the truth of the legend as an iff (`Spec/Plot`: what a legend text names, what a curve shows); rows from C42 and C46. Refuted for other levels: `C91_refuted` |
| C93 | `qlrpflPrep` over any arithmetic with the `Spec.Rounding` laws | relative errors (`RL`) through effective heights, raising and horizon estimates; C83 for the horizons, C89 for line and irregularity; compared with `NearGeometry`, the version with errors of `IsGeometry` (C58) |
| C94 | `qlra` over ℝ | derivative of the siting formula: `siting_slope` bounds its decay by tangents of the exponential, in the height and the bonus it is enough to look at the ends of the ranges; horizons and angles are monotone in the effective height; counterexample below 0.5 m |
| C95 | `lrprop` with everything it calls, in a family of arithmetics of growing precision (`Spec/Precision`), against `Spec/Reference` | asymptotic error analysis: each operation preserves `O(ε)` approximation (`Lemmas/Refine*`), branches agree in general position (`Spec/Clear`), functional form by C57; example with rounded fixed-point numbers (`Lemmas/Fixed`, `Lemmas/Hill`) |
| C96 | `avar`, then `lrprop`, `avar` and the free-space loss in sequence, in a family of arithmetics of growing precision | relational invariant between the dictionaries of the rounded and the exact run (`Lemmas/RefineVar`); at the seams both branches approximate the same number (the factor that jumps at the median is multiplied by a deviate that vanishes there); C95, C56 |
| C97 | the whole of `itmlogic_area` over families of arithmetics: `qerfi` with its rounding to four decimals, grid plan with its floors, `qlra`, the sweep with the coefficients carried from distance to distance, `avar` | `Lemmas/RefineQerfi`, `RefineSweep`, `RefineArea` on the calculus of C95; the carried coefficients approach those of the exact run (`CacheApx`) by induction over the sweep; general position in `Spec/AreaClear`; example `Lemmas/Beam`: 19.08 GHz over 30 m terrain, 50 to 500 km, shipped levels |
| C98 | `qlrpfl` up to the call of `lrprop`, with `hzns`, `zlsq1`, `dlthx`, `qtile`, over families of arithmetics | `Lemmas/RefineFit`, `RefineDlthx`, `RefineHzns`, `RefinePath`: truncations are finally those of the exact run (`OffGrid`); the values selected by `qtile` are compared as order statistics, so no condition on ties is needed; resampled points may be sample points, where one more step of the loop gives the same value (`dlthxSample_seam`); the scan of `hzns` is followed by an invariant that allows any of several tied samples until one stands out; general position in `Spec/PathClear`; example: a hill of 200 m halfway along 9 km |
| C99 | `itmlogic_p2p` whole, over families of arithmetics | `Lemmas/RefineP2P` chains C98, C95 and C96 through the state the program keeps: `Follows` for setup, complex square root, report and the two loops of rows; general position is stated for the path and link that follow from the profile (C58, C59), determined uniquely by `C58_determined` and `impedance_unique`; not claimed: whether the remark on scatter appears; example: shipped levels, 66 km over a tableland of 250 m at 19.08 GHz (`Lemmas/Mesa`, `MesaPath`), where every hypothesis is checked |
| C92 | `run_itmlogic` of pimter.py whole, over families of arithmetics | `Lemmas/RefinePimter`: induction over the heights with the invariant `CampApx` (a carried dictionary approximates the exact carried one in everything the next turn reads); each turn is C98, C95 and C96 as in C99; the path of a turn depends on its height only (`pimter_turn`), so general position is asked of 121 paths; example: shipped level, 66.3 km over a tableland of 1000 m, all 121 heights (`Lemmas/Plateau`, `PlateauPath`), where every hypothesis is checked |
| C100 | the three runners and `avar` on inputs that are off | `Lemmas/Exact`: the perturbed inputs, indexed by their size, with exact arithmetic form a family in the sense of `Spec/Precision`; so C99, C97, C92 and C96 apply, and one constant for all rows exists because there are finitely many; examples: the predictions of C99, C97, C92 and the median of a dictionary |
| C101 | IEEE 754 binary64 (`Spec/Binary64`): numbers, special values, rounding, the operations of Python floats, an arbitrary library | `Lemmas/Binary64`: the unit in the last place is a power of two bounded below, so rounding is `roundHalfEven` of a quotient: monotone, odd, idempotent, nearest, ties to even; the laws of `Spec/Rounding` then hold operation by operation; examples: a tie, an overflow, NaN, a correctly rounding library, levels and a path in doubles |
| C102 | `aknfe`, `fht`, `adiffWeight`, `h0f`, `ahd` over any `α` with the laws of `Spec/Rounding` and over `ℝ` on the same values | `Lemmas/ElemRound`, `DiffRound`, `WeightRound`: error propagation through each formula; comparisons with whole numbers are exact, those with `5.76`, `1e-5` and a computed product are decided by a margin; the gap between the two knife-edge formulas bounds the rest; the double `5.76` is computed (`6485183463413514 / 2^50`) |
| C103 | `adiff` at a positive distance over any `α` with the laws of `Spec/Rounding` and over `ℝ` on the same numbers (`Spec/DiffData`) | `Lemmas/AdiffRound`: relative errors through angle, gap, Fresnel parameters, cube root and logarithm (the sum of the angle cancels, so its relative error is bounded by its lower bound 1e-4), then `C102` for the two knife edges and the weight; the state a `horizons`/`initialising call` left is read, its own errors are those of the inputs |
| C104 | `terrain_area` from the rectangle of pixels on (`Model/Raster`): heights, gaps, which pixels lie in the cell; that `np.percentile` ignores masks is taken from numpy's documentation | counting on the decile specification of C51; refuted for every irregularity, exact where nothing is foreign, bounded while a tenth is; the program by composition |
| C105 | `ascat` over any `α` with the laws of `Spec/Rounding`, and the formulas at the same numbers written out in `Spec/ScatData` (angle, ray, efficiency, gain, attenuation) | `Lemmas/TableLip`: the gain table is Lipschitz in the efficiency (40 dB per unit) and in the logarithm of the scatter parameter; `Lemmas/ScatRound`: errors scaled to the crossover height (`NS`), a case split at 20 km where the exponential becomes constant, the two formulas at efficiency one differ by at most 1400 dB times the distance from one, then the curve away from its jumps; exact arithmetic is shown to return the formulas |
| C106 | `alos` over any `α` with the laws of `Spec/Rounding` and accurate sine and cosine (`Rounding.Trig`, an extra hypothesis), and the formulas at the same numbers in `Spec/LosData`; complex division is Smith's algorithm as in CPython; the modulus is the root of the sum of squares, where CPython calls `hypot` | `Lemmas/CxRound`: Smith's quotients in either order of the parts are within 6e-14 of the complex quotient; `Lemmas/LosRound`: relative errors through the fourth root, the exponentials and the modulus; the two tests of the reflection coefficient are decided alike away from 1/4, and the boundary at the grazing angle is continuous; the sum of the waves, the logarithm and the weighting; exact arithmetic is shown to return the formulas |
| C107 | `qlrps` over any `α` with the laws of `Spec/Rounding`; the complex root is the algorithm of CPython's `cmath.sqrt` (`hypot` modelled as the root of the sum of squares) | `Lemmas/EnvRound`: relative errors through both parts of the root (no cancellation in CPython's order of operations), Smith's division from `Lemmas/CxRound`, the exponentials; the exact impedance is characterised by `IsImpedance` and shown to be unique |
| C108 | `qlrps` and the range checks of `lrprop` (lines 54-82, `lrKwx`) over any `α` with the laws of `Spec/Rounding` | the error bounds of C107; `impedance_margin`: the exact real part exceeds the modulus of the imaginary part by 2e-10 at least, by factoring the real part of the square as a difference of squares and bounding the modulus; curvature below its limit forces refractivity above 400 |

Naming: a theorem `Cxx_…_partial` proves part of the property; its comment states the full claim and what is missing.
`Cxx_…_refuted` proves that the code violates the property (for all inputs of a stated class, not for one sample). The specification
a theorem refers to is in `Verif/Spec`; the non-trivial instances are the `example`s next to the theorems.

## 5. Trusted base

* Lean's kernel (4.33.0) and, through Mathlib's ℝ and finite sums, the axioms `propext`, `Classical.choice`, `Quot.sound`. No other axiom, no
  `sorry`, no compiler-trusting tactic.
* Axioms per theorem (from `#print axioms` on every theorem of MANIFEST.json): only `Quot.sound` and `propext`: `C04_qerfi_append`, `C04_qerfi_entries`, `C08_avar_idempotent`, `C08_avar_consumes_lvar`, `C08_avar_untouched`, `C21_p2p_ignores_argument`, `C21_p2p_keeps`, `C21_area_takes`, `C22_trigger_independent`, `C22_continuing_keeps`, `C22_triggers`, `C48_never_raises`, `C52_surface_unused`, `C60_same_lists`; only `propext`: `C62_empty`, `C72_empty`; all other theorems listed in MANIFEST.json: `propext`, `Classical.choice`, `Quot.sound`.
* The faithfulness of the model to the code: read by hand, each definition cites file and lines, cross-checked by running the same definitions
  over `Float` on the repository's own test inputs (`Conformance.lean`).
* For the ℝ theorems: that exact real arithmetic stands for the doubles. What rounding could change is claimed in C74 and later
  rounding theorems only, and there for arithmetics with the laws of `Spec/Rounding`.

### Conformance and one stale fixture

`Conformance.lean` runs the model on the inputs in `/repo/tests` and compares with the expected values there. One fixture cannot be
matched: `setup_final_prop_to_test_qlrpfl_pimter` (`tests/conftest.py` 1449) has `dl[0] = 1961.0`, the path length itself, which only the
obstructed branch of `qlrpfl.py` (69-75) can leave there, together with `dl[1] = 15206.5`, longer than the path, which only the
line-of-sight branch (46-49, which overwrites both entries) can produce. No execution of the current code returns both; it is left out.

## 6. Deviations of the code found while proving

| where | what | theorem |
|---|---|---|
| `lrprop.py` 160-164 | `aref` is assigned under `wlos == 0`: the second and later line-of-sight distances of a sweep keep the first value | `C20_sweep_refuted` |
| `area.py` + `lrprop.py` 160-164 | over terrain of irregularity 10 m or more the shipped area program prints for 20 km the losses for the attenuation at 10 km | `C70_file_refuted` |
| `p2p.py` 344-444, `p2p_2tiles.py` 342-441 | measured terrain and distance are not used: the prediction runs on the hard-coded profile over 77.8 km, for all sites | `C72_table`, `C72_distance_refuted` |
| `p2p.py` 187-199 | the path class compares with the smooth-earth horizons: the documented path is obstructed and reported as line of sight | `C73_report_refuted` |
| `lrprop.py` 65 | upper limit of terminal 0's horizon distance tests `dl[1]` | `C17_kwx_zero_refuted`, `C23_kwx_refuted` |
| `lrprop.py` 143-155 | the linear line-of-sight coefficient can be negative when the diffraction line is negative at the horizon | C24 |
| `qlrpfl.py` 43 | the second terminal's own ground is read one sample short, so a clear path has other heights from its other end | `C40_refuted`, `C64_clear_refuted` |
| `hzns.py` | of two obstacles under one angle the first in profile order is taken for both terminals | `C64_ties_refuted` |
| `lrprop.py` | two 100 m antennas with horizons at three times the smooth-earth distance, at the frequency where 1.908·k·he₀·he₁ equals the smooth-earth horizon: every line-of-sight call raises ZeroDivisionError although all parameters are within the limits | `C65_coincidence` |
| `adiff.py` | a horizon much closer than a tenth of the smooth-earth distance (only a warning) can make the rounded-earth argument negative: the result is nan | `C65_outside` |
| `zlsq1.py` 38 | sign: a degenerate window is not widened and the fit divides by zero | `C34_refuted` |
| `ascat.py` 35-36 | the value 1001 for the inadmissible case is always overwritten | `C32_refuted`, `C71_flat_refuted` |
| `aknfe.py` | drops at `v² = 5.76` and at 0 | C26 |
| `pimter.py` 89-90 | percentages are not divided by 100: every row is at about -4.75 deviations | `C06_refuted`, `C06_blind_refuted` |
| `pimter.py` 106 | the parameter `surface_profile_m` is unused (a global is read) | `C52_surface_unused` |
| `area.py` 164 | conductivity dropped from the impedance | `C47_refuted` |
| `area.py` 107-134 | `DS` unbound when `D1 <= D0` or `DS1 <= 0` | `C46_refuted`, `C46_unbound` |
| `p2p.py` 200-203 | "Diffraction is the dominant mode" is printed for every line-of-sight path, and nothing between `dlsa` and `dx` | C48 |
| `p2p.py` 208-215 | prints `qc[0..2]`, so fewer than three confidence levels raise `IndexError`; both lists are assigned twice, so editing only the first pair mislabels the rows | `C60_header`, `C60_refuted` |
| `vis.py` 39, 72 | the legend is hard-coded to 10/50/90 %, so figures for other levels are mislabelled | `C91_refuted` |
| `terrain_module.py` 163 | the receiver end is never sampled, and the runner stretches the profile over the whole path | `C50_refuted`, `C61_refuted` |
| `qlra.py` 27-45 | below antennas of 0.5 m the effective height can fall as the antenna is raised | `C94_limit` |
| `terrain_module.py` 115 | `np.percentile` ignores the mask of the masked array `rasterstats` passes, so pixels outside the cell count | `C104_refuted`, `C104_gaps_refuted` |

## 7. Mutation testing

`seeded/LOG.jsonl` has one line per attempt, made in a scratch copy of the project without `Conformance.lean` (whose `#guard`s would notice
numerical edits without any theorem doing so; in the third round the copy contained it, and its failures are left out of the log). Fields: the model definition edited, the edit, the claim it breaks, the declarations whose proof
failed to build (`failed`), the property theorems whose *statement* becomes false under the edit (`property_theorems_false_under_edit`), the property
theorems that could not be rebuilt because a module they import failed (`property_theorems_not_rebuilt`), and what was tightened.

A failing helper lemma alone says little: lemmas such as `qerf_eq` restate a definition and break under every edit. So each attempt is also judged
by hand: is some property theorem false of the edited program? Where the answer was no, a theorem was added or made stronger, and the line says so
under `tightened`. C54, C56, C57, C59, the explicit weight in C28_blend and the exact heights in C38_heights came about this way.
