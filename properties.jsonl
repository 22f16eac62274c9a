{"id": "C01", "title": "qtile is the order statistic", "statement": "qtile(a, ir) with 0 <= ir < len(a) returns an element v of a such that at most ir elements of a are strictly greater than v and more than ir elements are >= v; the answer does not depend on the order of a; an index outside [-len(a), len(a)) raises IndexError and only such an index does.", "quantifier": "every list of numbers, every integer index", "why_tests_cant": "a test checks one list and one index; the claim ranges over all lengths, contents, ties and indices", "anchors": ["src/itmlogic/misc/qtile.py:qtile"]}
{"id": "C02", "title": "qerf is a probability and complements", "statement": "qerf(z) is never rejected, lies in [0,1], and qerf(-z) + qerf(z) = 1 for every z != 0; it is exactly 0 for z >= 10 and exactly 1 for z <= -10; at z = 0 it is within 1e-8 of 1/2.", "quantifier": "every real z", "why_tests_cant": "range and symmetry claims over an uncountable domain; tests sample single values", "anchors": ["src/itmlogic/misc/qerf.py:qerf"]}
{"id": "C03", "title": "qerf is antitone", "statement": "z1 <= z2 implies qerf(z1) >= qerf(z2), across the branch changes at z = 0 and |z| = 10.", "quantifier": "every pair of reals", "why_tests_cant": "monotonicity relates all pairs, including pairs straddling the branches", "anchors": ["src/itmlogic/misc/qerf.py:qerf"]}
{"id": "C04", "title": "qerfi answers element by element", "statement": "qerfi(q) never raises on a list of finite numbers, returns one answer per entry in order, and each answer depends only on its own entry (qerfi(q1 + q2) = qerfi(q1) + qerfi(q2)).", "quantifier": "every list of numbers, of every length", "why_tests_cant": "arbitrary list length and content", "anchors": ["src/itmlogic/misc/qerfi.py:qerfi"]}
{"id": "C05", "title": "qerfi is an antitone, antisymmetric, saturating deviate", "statement": "For single entries: q1 <= q2 implies qerfi(q1) >= qerfi(q2); qerfi(1-q) = -qerfi(q); qerfi(0.5) = 0; every q <= 1e-6 gives one and the same upper value and every q >= 1-1e-6 its negative, with all answers between them.", "quantifier": "every real confidence level and every pair of them", "why_tests_cant": "monotonicity, symmetry and saturation quantify over all levels, also through 4-digit rounding and clipping", "anchors": ["src/itmlogic/misc/qerfi.py:qerfi"]}
{"id": "C06", "title": "Requested percentages are converted to fractions before use", "statement": "Every runner turns a requested percentage x into the deviate of the fraction x/100, so a 50 % request uses deviate 0.", "quantifier": "every percentage in (0,100)", "why_tests_cant": "tests never exercise the runners' conversion for all percentages; one runner (scripts/pimter.py) violates it", "anchors": ["scripts/p2p.py:itmlogic_p2p", "scripts/area.py:itmlogic_area", "scripts/pimter.py:run_itmlogic", "src/itmlogic/misc/qerfi.py:qerfi"]}
{"id": "C07", "title": "avar caching is invisible", "statement": "If after each parameter change lvar is raised to at least the documented level (1 distance, 2 effective heights, 3 wave number, 4 mode of variability, 5 climate), then in any sequence of changes and avar calls every answer equals the one a full recomputation (lvar = 5) would give at that point.", "quantifier": "every finite history of parameter changes and quantile requests, every starting dictionary with lvar = 5", "why_tests_cant": "cache staleness shows only on particular histories; tests run one call", "anchors": ["src/itmlogic/statistics/avar.py:avar"]}
{"id": "C08", "title": "avar consumes lvar and repeats itself", "statement": "A successful avar call leaves lvar = 0 (or unchanged if it was already <= 0), leaves aref, dist, heights and profile untouched, and an immediate second call with the same deviates returns the same number and the same dictionary.", "quantifier": "every dictionary and every triple of deviates", "why_tests_cant": "idempotence over all states", "anchors": ["src/itmlogic/statistics/avar.py:avar"]}
{"id": "C09", "title": "More confidence never means less loss", "statement": "In every variability mode (0,1,2,3) avar is antitone in the confidence deviate: lowering zc (raising confidence) never lowers the returned attenuation.", "quantifier": "every prepared dictionary (any climate, distance, frequency, heights), every zt, zl and every pair of zc", "why_tests_cant": "pairwise monotonicity over all parameters and across the sign/zd branches", "anchors": ["src/itmlogic/statistics/avar.py:avar", "src/itmlogic/statistics/curv.py:curv"]}
{"id": "C10", "title": "More reliability never means less loss", "statement": "In modes 1, 2 and 3 avar is antitone in the time deviate zt, and in mode 3 in the location deviate zl.", "quantifier": "every prepared dictionary, every pair of zt (zl), every zc", "why_tests_cant": "pairwise monotonicity over all parameters", "anchors": ["src/itmlogic/statistics/avar.py:avar"]}
{"id": "C11", "title": "Unused deviates are ignored", "statement": "In single-message mode the answer does not depend on zt or zl; in accidental and mobile mode it does not depend on zl.", "quantifier": "all dictionaries, all deviates", "why_tests_cant": "non-interference is a statement about all pairs of inputs", "anchors": ["src/itmlogic/statistics/avar.py:avar"]}
{"id": "C12", "title": "avar is monotone in aref and softens negative values", "statement": "For fixed cached statistics avar is nondecreasing in aref; nonnegative raw values are returned unchanged, and a negative raw value y is returned as a value in (y, y/10), so the sign is preserved.", "quantifier": "all reals", "why_tests_cant": "the rational softening formula must be monotone and sign-preserving everywhere", "anchors": ["src/itmlogic/statistics/avar.py:avar"]}
{"id": "C13", "title": "Variability mode decoding", "statement": "mdvar = m + 10a + 20b with m in 0..3, a,b in {0,1} is decoded to mode m, location variability eliminated iff a=1, situation variability eliminated iff b=1; any mdvar whose remainder is not 0..3 is treated as mode 0 and raises kwx to at least 2; valid codes leave kwx alone.", "quantifier": "every integer mdvar", "why_tests_cant": "integer domain is unbounded and includes negatives and values >= 34", "anchors": ["src/itmlogic/statistics/avar.py:avar"]}
{"id": "C14", "title": "Climate code defaulting", "statement": "A climate code 1..7 is kept and selects its own row; any other integer is replaced by 5 (continental temperate) with kwx raised to at least 2; no climate code makes the table lookup fail.", "quantifier": "every integer climate code", "why_tests_cant": "unbounded integer domain, negative codes would otherwise index from the end of the tables", "anchors": ["src/itmlogic/statistics/avar.py:avar"]}
{"id": "C15", "title": "Variability curves are bounded and nonnegative", "statement": "curv is 0 at zero effective distance, for nonnegative c1,c2 lies in [0, c1+c2], and for every climate the time-variability deviations sgtm, sgtp, sgtd and the location deviation sgl (in [0,10)) and vs0 (in [0,64]) produced by avar are nonnegative.", "quantifier": "every distance, climate, frequency and dh >= 0", "why_tests_cant": "range over all reals and tables", "anchors": ["src/itmlogic/statistics/curv.py:curv", "src/itmlogic/statistics/avar.py:avar"]}
{"id": "C16", "title": "The warning marker is cumulative", "statement": "In every history of qlra, qlrpfl, lrprop and avar calls, kwx never decreases and stays in 0..4 when it starts there.", "quantifier": "every finite history of API calls and parameter changes", "why_tests_cant": "history quantification; a test sees one call", "anchors": ["src/itmlogic/lrprop.py:lrprop", "src/itmlogic/statistics/avar.py:avar", "src/itmlogic/preparatory_subroutines/qlra.py:qlra", "src/itmlogic/preparatory_subroutines/qlrpfl.py:qlrpfl"]}
{"id": "C17", "title": "The warning marker means what the manual says", "statement": "After a set-up call of lrprop, kwx = 0 only if frequency, antenna heights, horizon angles, horizon distances of both terminals, refractivity, curvature, impedance and distance are all within the documented limits; kwx = 4 whenever a hard limit is violated.", "quantifier": "every parameter set and distance", "why_tests_cant": "soundness of a validity flag is a statement about all inputs; the code checks dl[1] twice and dl[0]'s upper limit never", "anchors": ["src/itmlogic/lrprop.py:lrprop"]}
{"id": "C18", "title": "Reference attenuation is never negative", "statement": "Every successful lrprop call returns aref >= 0.", "quantifier": "every state and distance", "why_tests_cant": "holds over all branches", "anchors": ["src/itmlogic/lrprop.py:lrprop"]}
{"id": "C19", "title": "Reference attenuation is continuous across region boundaries", "statement": "For one prepared parameter set, the line-of-sight formula and the diffraction formula agree at dlsa, and the diffraction and the scatter formula agree at dx.", "quantifier": "every parameter set for which the coefficients are produced", "why_tests_cant": "equality at a parameter-dependent boundary for all parameters", "anchors": ["src/itmlogic/lrprop.py:lrprop"]}
{"id": "C20", "title": "An area sweep gives each distance its own answer", "statement": "In area mode the aref returned for distance D in a sweep equals the aref a fresh preparation followed by a single call at D would return, whatever distances were asked before.", "quantifier": "every sequence of distances", "why_tests_cant": "history dependence; the shipped test checks only the first and the last distance of one sweep. The code violates it inside the line-of-sight region", "anchors": ["src/itmlogic/lrprop.py:lrprop", "scripts/area.py:itmlogic_area"]}
{"id": "C21", "title": "Distance argument semantics", "statement": "In point-to-point mode lrprop ignores its distance argument and keeps dist and mdp; in area mode it sets dist to the argument and mdp to 0.", "quantifier": "every state and both modes", "why_tests_cant": "for all states", "anchors": ["src/itmlogic/lrprop.py:lrprop"]}
{"id": "C22", "title": "Set-up is done once and lazily computed coefficients do not depend on the trigger", "statement": "Continuing area calls change no set-up coefficient; the line-of-sight and scatter coefficients, once computed for one preparation, never change until the next preparation and are the same whichever distance triggered them.", "quantifier": "every sequence of distances after a preparation", "why_tests_cant": "history quantification", "anchors": ["src/itmlogic/lrprop.py:lrprop"]}
{"id": "C23", "title": "Reciprocity", "statement": "Exchanging the two terminals (hg, he, dl, the) leaves aref, the diffraction, line-of-sight and scatter coefficients unchanged, and leaves kwx unchanged too.", "quantifier": "every parameter set with positive effective heights, every distance", "why_tests_cant": "a relation between two runs for all inputs; the kwx half is violated by the dl[1]/dls[0] comparison", "anchors": ["src/itmlogic/lrprop.py:lrprop", "src/itmlogic/diffraction_attenuation/adiff.py:adiff", "src/itmlogic/los_attenuation/alos.py:alos", "src/itmlogic/scatter_attenuation/ascat.py:ascat"]}
{"id": "C24", "title": "Attenuation grows with distance", "statement": "If the produced diffraction slope emd and scatter slope ems are nonnegative and the inner distances d0, d1 of the line-of-sight fit are positive and below the horizon distance dlsa, then aref at a larger distance is never smaller than at a shorter one, across all three regions.", "quantifier": "every preparation, every pair of positive distances", "why_tests_cant": "pairwise over regions", "anchors": ["src/itmlogic/lrprop.py:lrprop"]}
{"id": "C25", "title": "The line-of-sight fit is well posed", "statement": "Whenever 0 < d0 < d1 < d2 the divisor of the logarithmic coefficient is nonzero (positive), ak2 >= 0, and ak1 >= 0 unless it was replaced by emd.", "quantifier": "all distances and attenuations", "why_tests_cant": "needs strict concavity of log, not samples", "anchors": ["src/itmlogic/lrprop.py:lrprop"]}
{"id": "C26", "title": "Diffraction is a blend plus a bounded clutter term", "statement": "For d != 0 adiff leaves the dictionary unchanged and returns a convex combination of rounded-earth and double knife-edge attenuation plus afo; afo is in [0,15]; the weight is in (0,1]; adiff(0) changes only its six set-up keys and returns 0.", "quantifier": "all parameter sets with nonnegative dh, positive heights", "why_tests_cant": "bounds over all inputs", "anchors": ["src/itmlogic/diffraction_attenuation/adiff.py:adiff"]}
{"id": "C27", "title": "Knife-edge attenuation floor and near-monotonicity", "statement": "aknfe never raises, is at least 6.02 dB, and is monotone in v2.", "quantifier": "every real v2 and every pair", "why_tests_cant": "monotonicity fails by < 0.03 dB at the clamp and at 5.76; tests sample five points", "anchors": ["src/itmlogic/diffraction_attenuation/aknfe.py:aknfe"]}
{"id": "C28", "title": "Height-gain blending", "statement": "fht(x, pk) for 200 <= x < 2000 lies between the far formula 0.05751x-4.343 ln x and the near formula 17.372 ln x - 117, equals the far formula beyond 2000, and is at least -117 dB in the small-impedance branch.", "quantifier": "all x, pk > 0", "why_tests_cant": "range claim over reals", "anchors": ["src/itmlogic/diffraction_attenuation/fht.py:fht"]}
{"id": "C29", "title": "Line-of-sight attenuation is a blend and reads only", "statement": "alos is a convex combination (weight wis in (0,1]) of the extended diffraction attenuation and the plane-earth attenuation, and does not change the dictionary.", "quantifier": "all parameter sets, d > 0", "why_tests_cant": "all inputs", "anchors": ["src/itmlogic/los_attenuation/alos.py:alos", "src/itmlogic/lrprop.py:lrprop"]}
{"id": "C30", "title": "Scatter distance function bounds", "statement": "For every td > 0 ahd(td) > 96.7 dB; it strictly decreases up to 10 km and strictly increases from 10 to 70 km and from 70 km on; its downward jumps at 10 km and 70 km are below 0.11 and 0.32 dB.", "quantifier": "all td > 0", "why_tests_cant": "lower bound over an infinite domain and branch boundaries", "anchors": ["src/itmlogic/scatter_attenuation/ahd.py:ahd"]}
{"id": "C31", "title": "Frequency gain function", "statement": "For every r != 0 and every et h0f does not raise, is nonnegative, nondecreasing in et, nonincreasing in |r|, constant for et <= 1 and for et >= 5.", "quantifier": "all r != 0, all et and all pairs", "why_tests_cant": "pairwise monotonicity across table cells; index safety for all et", "anchors": ["src/itmlogic/scatter_attenuation/h0f.py:h0f"]}
{"id": "C32", "title": "Inadmissible scatter paths are reported", "statement": "When both scatter parameters r1 and r2 are below 0.2 the scatter attenuation is reported as inadmissible (1001 dB) so that lrprop falls back to pure diffraction.", "quantifier": "every parameter set with r1, r2 < 0.2", "why_tests_cant": "the sentinel is always overwritten, so the property is false for the whole inadmissible region; tests never reach it", "anchors": ["src/itmlogic/scatter_attenuation/ascat.py:ascat", "src/itmlogic/lrprop.py:lrprop"]}
{"id": "C33", "title": "zlsq1 is a least-squares line", "statement": "For a window containing at least one profile interval, zlsq1 returns the values at the two profile ends of the line minimising the trapezoid-weighted squared error over the samples of the window; in particular it reproduces every straight-line profile exactly and commutes with adding a line to the profile.", "quantifier": "every profile length, content and window", "why_tests_cant": "arbitrary lengths; optimality over all lines", "anchors": ["src/itmlogic/preparatory_subroutines/zlsq1.py:zlsq1"]}
{"id": "C34", "title": "zlsq1 accepts every window", "statement": "zlsq1 does not raise for any window 0 <= x1 <= x2 <= length of the profile, including windows inside one sample interval.", "quantifier": "every profile and window", "why_tests_cant": "the degenerate-window repair has a sign error and divides by zero when both ends fall on one interior sample; only an exhaustive argument separates the safe windows from the crashing ones", "anchors": ["src/itmlogic/preparatory_subroutines/zlsq1.py:zlsq1"]}
{"id": "C35", "title": "hzns finds the horizon", "statement": "hzns returns for each terminal the largest elevation angle among the other terminal and all intermediate profile points (earth curvature included), and a distance at which this largest angle is attained (the full path when no intermediate point exceeds the other terminal).", "quantifier": "every profile length and content, heights, curvature", "why_tests_cant": "maximum over an unbounded loop with running state and a gating flag", "anchors": ["src/itmlogic/preparatory_subroutines/hzns.py:hzns"]}
{"id": "C36", "title": "hzns is reciprocal", "statement": "Reversing the profile and exchanging the antennas exchanges the two horizon angles.", "quantifier": "every profile", "why_tests_cant": "relation between two runs for all profiles; the loop is asymmetric", "anchors": ["src/itmlogic/preparatory_subroutines/hzns.py:hzns"]}
{"id": "C37", "title": "Terrain irregularity is a detrended interdecile range", "statement": "dlthx is nonnegative, 0 when the window covers fewer than two intervals, unchanged by adding any straight line to the profile (so 0 on straight terrain), scales with |c| when all elevations are scaled by c, and never indexes outside the profile for 0 <= x1, x2 <= profile length.", "quantifier": "every profile, window, slope and offset", "why_tests_cant": "loops over data-dependent resampling; invariances relate infinitely many runs", "anchors": ["src/itmlogic/preparatory_subroutines/dlthx.py:dlthx", "src/itmlogic/preparatory_subroutines/zlsq1.py:zlsq1", "src/itmlogic/misc/qtile.py:qtile"]}
{"id": "C38", "title": "Area preparation yields usable parameters", "statement": "For positive hg, gme and dh >= 0 qlra never raises, gives hg <= he <= hg+10, 0 < dl <= smooth-earth horizon distance, he = hg for random siting, more careful siting never lowers he, mdp = 1 and lvar >= 3 (>= 4 when mdvarx >= 0, = 5 when klimx > 0). It never returns for a negative dh, nor where an effective height and gme differ in sign.", "quantifier": "all positive inputs and all siting codes", "why_tests_cant": "all reals and integers", "anchors": ["src/itmlogic/preparatory_subroutines/qlra.py:qlra"]}
{"id": "C39", "title": "Point-to-point preparation yields usable parameters", "statement": "For a profile with np >= 2, xi > 0, positive hg and gme, the parameter preparation of qlrpfl does not raise, gives he >= hg > 0, dl > 0, dh >= 0, dist = np*xi, mdp = -1, lvar >= 3, and on line-of-sight profiles the horizon distances reach: dl[0]+dl[1] >= dist.", "quantifier": "all profiles and positive heights", "why_tests_cant": "arbitrary profiles; includes absence of the zlsq1 degenerate windows", "anchors": ["src/itmlogic/preparatory_subroutines/qlrpfl.py:qlrpfl"]}
{"id": "C40", "title": "The receiver end of the profile is used", "statement": "The effective height of the second terminal is computed from the last profile point (the terrain under the receiver) on every path.", "quantifier": "every profile", "why_tests_cant": "in the line-of-sight branch the code reads the last-but-one point; needs a relation over profiles", "anchors": ["src/itmlogic/preparatory_subroutines/qlrpfl.py:qlrpfl"]}
{"id": "C41", "title": "General preparation", "statement": "qlrps: wn is proportional to frequency; zsys = 0 leaves en0; gme is positive exactly when ens is below 179.3*ln(1/0.04665), decreasing in ens; for eps > 1 and sgm >= 0 zgnd satisfies zgnd^2 = zq-1 (horizontal) or zgnd*zq = sqrt(zq-1) (vertical), with Re zgnd >= |Im zgnd| so that lrprop's impedance check cannot fire.", "quantifier": "all positive frequencies, ground constants, refractivities", "why_tests_cant": "real/complex inequalities over all inputs", "anchors": ["src/itmlogic/preparatory_subroutines/qlrps.py:qlrps", "src/itmlogic/lrprop.py:lrprop"]}
{"id": "C42", "title": "Point-to-point report shape", "statement": "itmlogic_p2p returns exactly 15 rows, reliability-major (1,10,50,90,99) and confidence (50,90,10) minor, each carrying the requested distance and loss = free-space loss + avar at that row's deviates, independent of the rows before it.", "quantifier": "every parameter set and profile that runs", "why_tests_cant": "every input", "anchors": ["scripts/p2p.py:itmlogic_p2p"]}
{"id": "C43", "title": "Point-to-point report ordering", "statement": "In an itmlogic_p2p report, at equal reliability the loss at 10 % confidence <= 50 % <= 90 %, and at equal confidence the loss does not decrease with reliability.", "quantifier": "every parameter set and profile that runs", "why_tests_cant": "end-to-end monotonicity for all inputs", "anchors": ["scripts/p2p.py:itmlogic_p2p", "src/itmlogic/statistics/avar.py:avar", "src/itmlogic/misc/qerfi.py:qerfi"]}
{"id": "C44", "title": "Point-to-point runs do not leak state", "statement": "The output of itmlogic_p2p is a function of fmhz, d, hg, ipol and the profile only: any leftover contents of the (aliased, mutated) user dictionary from earlier runs do not change it; rerunning with the same dictionary returns the same rows.", "quantifier": "every leftover dictionary content", "why_tests_cant": "quantifies over all earlier histories", "anchors": ["scripts/p2p.py:itmlogic_p2p"]}
{"id": "C45", "title": "Area runs do not leak state", "statement": "The output of itmlogic_area is a function of fmhz, dh, hg and ipol only, whatever the leftover dictionary contents.", "quantifier": "every leftover dictionary content", "why_tests_cant": "quantifies over all earlier histories", "anchors": ["scripts/area.py:itmlogic_area"]}
{"id": "C46", "title": "Area distance grid", "statement": "itmlogic_area reports strictly increasing distances, three confidence rows per distance, starting at D0, stepping DS1 up to the rounded D1 and DS2 up to the rounded D2; any grid with positive steps is accepted.", "quantifier": "every grid D0,D1,DS1,D2,DS2", "why_tests_cant": "all grids; the single-distance grid leaves DS unbound and crashes", "anchors": ["scripts/area.py:itmlogic_area"]}
{"id": "C47", "title": "The runners use the library's ground impedance", "statement": "The runners set wn, gme, ens and zgnd to the values qlrps returns for the same constants.", "quantifier": "every frequency, polarization and ground constant", "why_tests_cant": "all inputs; area.py drops the conductivity term for horizontal polarization", "anchors": ["scripts/area.py:itmlogic_area", "scripts/p2p.py:itmlogic_p2p", "src/itmlogic/preparatory_subroutines/qlrps.py:qlrps"]}
{"id": "C48", "title": "The path report never fails and does not contradict itself", "statement": "After a successful qlrpfl the classification in itmlogic_p2p never reads a missing key, prints exactly one path class, and does not print 'Diffraction is the dominant mode' for a line-of-sight path.", "quantifier": "every path", "why_tests_cant": "lazily set key dx must be present exactly when read; contradiction concerns all line-of-sight paths", "anchors": ["scripts/p2p.py:itmlogic_p2p", "src/itmlogic/lrprop.py:lrprop"]}
{"id": "C49", "title": "Profile sample count", "statement": "determine_num_samples(distance) is between 2 and 600 for every nonnegative distance, equals 2 at 0, and is nondecreasing.", "quantifier": "every nonnegative distance", "why_tests_cant": "all reals through round()", "anchors": ["scripts/terrain_module.py:determine_num_samples"]}
{"id": "C50", "title": "Profile samples cover the path", "statement": "terrain_p2p samples equally spaced points starting at the transmitter and ending at the receiver.", "quantifier": "every line", "why_tests_cant": "the last sample is one step short of the receiver for every line", "anchors": ["scripts/terrain_module.py:terrain_p2p"]}
{"id": "C51", "title": "Interdecile range of raster values", "statement": "interdecile_range is a nonnegative integer, independent of the order of the values, unchanged by adding an integer offset, zero on constant data, at most max-min rounded.", "quantifier": "every nonempty list", "why_tests_cant": "all lengths and contents", "anchors": ["scripts/terrain_module.py:interdecile_range"]}
{"id": "C52", "title": "Campaign rows are independent", "statement": "run_itmlogic of pimter.py returns one row per transmitter height 10..130 m; each row equals the row of a run for that height alone, so nothing carries over between heights; the surface profile argument has no influence on any row.", "quantifier": "every terrain, distance list, leftover dictionary and requested level", "why_tests_cant": "quantifies over all earlier loop turns and all profiles; lrprop leaves state (aref, lvar, cached coefficients) in the shared dictionary", "anchors": ["scripts/pimter.py:run_itmlogic"]}
{"id": "C53", "title": "Level links are always answered", "statement": "The three runners answer every level trans-horizon link in the documented parameter ranges without raising, whatever the dictionary held before.", "quantifier": "every distance, antenna height, frequency, polarization, percentage list and leftover dictionary in the range", "why_tests_cant": "infinitely many inputs; each division, square root and logarithm on the way must be shown to be in its domain", "anchors": ["scripts/p2p.py:itmlogic_p2p", "scripts/area.py:itmlogic_area", "scripts/pimter.py:run_itmlogic"]}
{"id": "C54", "title": "qerf is the normal tail probability", "statement": "For every real z, qerf(z) is within 1e-5 of the probability that a standard normal variable exceeds z; from five deviations on it is within 3.3e-7, through the cut-off at 10.", "quantifier": "every real z", "why_tests_cant": "the error of an approximation over the whole line is a supremum; tests compare single table entries", "anchors": ["src/itmlogic/misc/qerf.py:qerf"]}
{"id": "C55", "title": "qerfi inverts the normal tail", "statement": "For every x whose normal tail probability lies in [1e-6, 1-1e-6], qerfi of that probability is x up to 0.0051 (rounding included), also entry by entry in a list; and for every level q in [0,1], qerf(qerfi(q)) is q up to 0.0021. (The docstring promises 4.5e-4 for the first error.)", "quantifier": "every real x, every list of them, every level in [0,1]", "why_tests_cant": "uniform error of an inverse approximation through logarithm, square root, clipping and rounding", "anchors": ["src/itmlogic/misc/qerfi.py:qerfi", "src/itmlogic/misc/qerf.py:qerf"]}
{"id": "C56", "title": "avar returns the published quantile", "statement": "In every history that follows the lvar protocol and starts with lvar = 5, each answer of avar is the closed-form ITM quantile (Spec.quantile: climate curves, sigma_T with its three branches, sigma_L, sigma_S, mode combination, softening of negative results) of the current parameters and deviates; it exists for every physical dictionary; and kwx is raised by avar exactly when a deviate in use by the current mode exceeds 3.10 in magnitude.", "quantifier": "all reals, all seven climates and undocumented ones, all 16 mode codes, all histories", "why_tests_cant": "tests compare a handful of rounded numbers; a misplaced branch of sigma_T or a stale cached coefficient shows only for some climates, modes and histories", "anchors": ["src/itmlogic/statistics/avar.py:avar", "src/itmlogic/statistics/curv.py:curv"]}
{"id": "C57", "title": "lrprop returns the published reference attenuation", "statement": "A first call of lrprop returns the reference attenuation of the ITM defined in closed form (line-of-sight curve through A0, A1, A2 of the two-ray/diffraction blend; diffraction line; scatter line; their cross-over) of the link the dictionary describes: at every line-of-sight distance, and at every other distance if the two scatter distances are usable. In a sweep of calls the same holds beyond the horizon whatever was asked before, and at each call before which no line-of-sight distance was asked (later line-of-sight calls: C20).", "quantifier": "all reals, all links, all sweeps", "why_tests_cant": "the published curve is defined by cases over seven link parameters; sample points cannot show that the coefficients built at the first call serve every later distance", "anchors": ["src/itmlogic/lrprop.py:lrprop", "src/itmlogic/diffraction_attenuation/adiff.py:adiff", "src/itmlogic/los_attenuation/alos.py:alos", "src/itmlogic/scatter_attenuation/ascat.py:ascat"]}
{"id": "C58", "title": "qlrpfl prepares the published path parameters", "statement": "For every terrain profile, qlrpfl hands lrprop the path parameters the ITM manual defines from the profile: horizon distances and angles, effective heights from the fitted line over the clear or horizon part, the raise of smooth-horizon distances on clear paths, and the irregularity over the inner part. The parameters are uniquely determined by that definition.", "quantifier": "all profiles of any length, all heights, all curvatures", "why_tests_cant": "a profile has arbitrarily many points; an off-by-one in one index only shows for particular terrain", "anchors": ["src/itmlogic/preparatory_subroutines/qlrpfl.py:qlrpfl", "src/itmlogic/preparatory_subroutines/hzns.py:hzns", "src/itmlogic/preparatory_subroutines/zlsq1.py:zlsq1", "src/itmlogic/preparatory_subroutines/dlthx.py:dlthx"]}
{"id": "C59", "title": "The runners report the published loss", "statement": "Every loss the point-to-point, area and campaign runners report is the free-space loss plus the published ITM quantile of the link the user described: siting heights, horizons and curvature (area) or path parameters from the terrain profile (point-to-point, campaign), ground impedance, reference attenuation at the row's own distance, climate 5, and the deviates of the row's own levels.", "quantifier": "all frequencies, heights, polarizations, terrain profiles, grids and requested levels; whatever the dictionary held before", "why_tests_cant": "the end-to-end result runs through eight modules that communicate through one mutable dictionary; a test compares a table of one link, a stale or misread entry shows on others", "anchors": ["scripts/p2p.py:itmlogic_p2p", "scripts/area.py:itmlogic_area", "scripts/pimter.py:run_itmlogic"]}
{"id": "C60", "title": "Point-to-point rows are labelled with their own levels", "statement": "Whatever confidence and reliability levels the user puts into itmlogic_p2p, each row is labelled with the levels its loss was computed for.", "quantifier": "all lists of levels in lines 77/80 and 212/215, all links", "why_tests_cant": "both lists are assigned twice; the shipped lists agree, so a test of the shipped script cannot see that the labels and the deviates come from different assignments", "anchors": ["scripts/p2p.py:77", "scripts/p2p.py:212", "scripts/p2p.py:219"]}
{"id": "C61", "title": "Terrain samples are used where they were measured", "statement": "terrain_p2p returns the elevations at equally spaced points of the straight line between the sites, fails exactly if one lies outside the elevation model, and itmlogic_p2p, given that profile and distance, places each sample at the position where it was measured.", "quantifier": "all elevation models, site pairs and path lengths", "why_tests_cant": "needs all rasters; the misplacement is at most one step and hides in any tolerance", "anchors": ["scripts/terrain_module.py:terrain_p2p", "scripts/p2p.py:straight_line_from_points", "scripts/p2p.py:133"]}
{"id": "C62", "title": "The result file holds the rows", "statement": "Reading the file csv_writer wrote gives the column names and then, row by row and cell by cell, the values of the report, for every text the values render to.", "quantifier": "all reports, all renderings of numbers, all characters", "why_tests_cant": "quoting and column order must hold for every cell content; the repository does not test the writer at all", "anchors": ["scripts/p2p.py:csv_writer", "scripts/area.py:csv_writer"]}
{"id": "C63", "title": "The height datum does not matter", "statement": "A point-to-point run on a terrain profile whose heights are all measured from another datum (raised by one constant) prints and returns exactly the same.", "quantifier": "all profiles of at least two points, all shifts, links and levels; rows, messages and exceptions", "why_tests_cant": "the heights pass through fits, horizons and order statistics; a test compares one shift of one profile, and one absolute height left in the code shows only on others", "anchors": ["src/itmlogic/preparatory_subroutines/qlrpfl.py", "src/itmlogic/preparatory_subroutines/hzns.py", "src/itmlogic/preparatory_subroutines/dlthx.py", "src/itmlogic/lrprop.py"]}
{"id": "C64", "title": "A path may be entered from either end", "statement": "Reversing the profile and exchanging the antenna heights leaves the rows and messages of a point-to-point run unchanged.", "quantifier": "all profiles, antenna heights, frequencies, levels", "why_tests_cant": "reciprocity involves two runs on different data that take different loops and indices; a test sees it on the profiles it tries", "anchors": ["src/itmlogic/preparatory_subroutines/qlrpfl.py:43", "src/itmlogic/preparatory_subroutines/hzns.py", "scripts/p2p.py:itmlogic_p2p"]}
{"id": "C65", "title": "Links within the limits are answered", "statement": "For a link within the hard limits (and documented horizons, effective heights up to 20 km, ground not closer to a mirror than sea water, beyond the horizon also horizon rays that cross) the reference attenuation is a number; the only exceptions raised are divisions by zero, exactly when the diffraction and the scatter line are parallel or an inner distance of the line-of-sight fit falls on the horizon. The point-to-point runner therefore answers every profile of at least two points between 20 MHz and 20 GHz, with antennas of 0.5 to 3000 m, whose prepared path is within the limits. Outside the limits (a mere warning) the answer can be nan.", "quantifier": "all links within the limits, all distances; all profiles, antenna heights and levels of the runner", "why_tests_cant": "the formulas contain logarithms, roots and quotients of intermediate values; that none of them leaves its domain anywhere in the parameter range is not visible from finitely many calls that happened to return", "anchors": ["src/itmlogic/lrprop.py", "src/itmlogic/diffraction_attenuation/adiff.py", "src/itmlogic/los_attenuation/alos.py", "src/itmlogic/scatter_attenuation/ascat.py", "scripts/p2p.py:itmlogic_p2p"]}
{"id": "C66", "title": "Area predictions within the limits are answered", "statement": "For 20 MHz to 20 GHz, antennas of 1 to 3000 m, terrain irregularity up to 700 m, any siting criteria, levels and distance grid whose step is assigned, the area runner prepares a link within the limits and either answers every row or stops with a division by zero, never with another exception or a nan; it answers when the prepared link has none of the coincidences of C65. On smooth earth (irregularity 0, from 400 MHz, frequency times antenna height at least 21 700 MHz m) the coincidences are impossible and every run is answered, within and beyond line of sight.", "quantifier": "all area inputs in the stated ranges, all siting criteria, level lists and grids with a step; all steps of the sweep", "why_tests_cant": "the sweep reuses coefficients from step to step, and the domain of every logarithm, root and quotient depends on the continuous inputs; finitely many sweeps that returned do not show that none can fail", "anchors": ["scripts/area.py:itmlogic_area", "src/itmlogic/preparatory_subroutines/qlra.py", "src/itmlogic/lrprop.py"]}
{"id": "C67", "title": "Unusable input is never answered", "statement": "The reference attenuation answers a first call only for a physical link: positive frequency, curvature and effective heights, horizons away from the antennas, irregularity that is not negative, ground that is not a perfect mirror. So the point-to-point runner answers only positive frequencies and distances and profiles of at least two points; the area runner answers only positive frequencies, irregularities that are not negative and, where siting is random, antennas above ground; the campaign runner answers only when the first two distances increase and every distance has a terrain sample. Everything else stops with an exception or nan, not with a number.", "quantifier": "all inputs and all states of the record; all profiles, grids, level lists and distances", "why_tests_cant": "the code has no input check; that a wrong sign always ends in a root, logarithm or division outside its domain and can never cancel against another wrong sign is a statement about all inputs", "anchors": ["src/itmlogic/lrprop.py", "src/itmlogic/diffraction_attenuation/adiff.py", "scripts/p2p.py:itmlogic_p2p", "scripts/area.py:itmlogic_area"]}
{"id": "C68", "title": "The predicted loss has no jumps", "statement": "Along any family of parameters (distance, irregularity, effective heights, wave number, reference attenuation, deviates) the quantile answered by avar is continuous in all of them together, in every climate and mode: across the median, the far-above-median threshold, the change of the effective distance and the softening of negative values. An error in the reference attenuation is passed on with a factor between 0.1 and 1. For one set of area inputs there is one continuous function of distance and deviates from which every run, whatever its grid and levels, takes the loss of its first distance and of all distances beyond the horizon.", "quantifier": "all topological families of dictionaries within the protocol, all climates and modes; all area inputs, grids and levels", "why_tests_cant": "continuity is about all limits at all points; the formulas are piecewise with nine seams, and one of the factors really jumps at the median", "anchors": ["src/itmlogic/statistics/avar.py", "src/itmlogic/lrprop.py", "scripts/area.py:itmlogic_area"]}
{"id": "C69", "title": "Campaign runs are answered, all heights or none", "statement": "On any terrain with at least two distances, the first two increasing, and a sample for every distance, the set-up of pimter.py and the preparation of all 121 antenna heights succeed. If every prepared path is within the limits of C65 and has none of its coincidences, the run returns 121 rows; if one of them has a coincidence, the run returns nothing, not even the other heights.", "quantifier": "all terrains, distance lists, levels and leftover dictionaries", "why_tests_cant": "121 preparations on a shared dictionary and a continuum of terrains; every logarithm, root and quotient must stay in its domain", "anchors": ["scripts/pimter.py:run_itmlogic", "src/itmlogic/preparatory_subroutines/qlrpfl.py"]}
{"id": "C70", "title": "What the area program writes", "statement": "The file area.py writes over any terrain, read back by a CSV reader, is a header and 66 lines: the 22 distances 10 to 500 km, three confidence levels each, for the irregularity that is the rounded interdecile range of the terrain cells. Every loss is the published one at its own distance. Over any nonempty terrain whose heights differ by at most 700 m the program ends with a file or a division by zero.", "quantifier": "all terrain rasters, number formats and runs", "why_tests_cant": "the terrain is a continuum and the loss at one distance silently depends on the attenuation left over from another", "anchors": ["scripts/area.py:__main__", "scripts/area.py:itmlogic_area", "src/itmlogic/lrprop.py", "scripts/terrain_module.py:interdecile_range"]}
{"id": "C71", "title": "Links barred from scatter follow the diffraction line", "statement": "On a link both of whose scatter parameters are below 0.2 at the nearer scatter distance the published model leaves scatter out: beyond the horizon the attenuation is the diffraction line. The code's attenuation on every link and at every distance is the one with scatter always included; on barred links it leaves the diffraction line where the two lines cross and differs from there on by the difference of their slopes. Over flat terrain the shipped area program writes losses for 500 km that are based on an attenuation at least 20 dB too low.", "quantifier": "all links, first calls at all distances; all terrains of interdecile range 0, number formats and runs of the program", "why_tests_cant": "The barred region depends on the product of frequency, curvature and antenna heights, the tests only compare with stored outputs of the same code, and the claim is about all links.", "anchors": ["src/itmlogic/scatter_attenuation/ascat.py:35", "src/itmlogic/scatter_attenuation/ascat.py:64", "src/itmlogic/lrprop.py", "scripts/area.py"]}
{"id": "C72", "title": "What the point-to-point programs write", "statement": "p2p.py and p2p_2tiles.py write the sample points with their elevations, and a table whose header and 15 lines give the published losses of the measured path for every pair of reliability and confidence level at the measured distance; they stop if a sample point is not covered.", "quantifier": "all elevation models, sites, distances and number formats", "why_tests_cant": "independence of the table from elevation model and sites is a statement about all pairs of inputs; the scripts have no tests of their main blocks", "anchors": ["scripts/p2p.py:344", "scripts/p2p_2tiles.py:342", "scripts/terrain_module.py:terrain_p2p"]}
{"id": "C73", "title": "The documented link", "statement": "The run the point-to-point programs are shipped with (41.5 MHz, 77.8 km, 157 heights) is answered for any requested levels with the published losses of the path, gives the same rows from the other end, and reports the path class by the horizons of the terrain.", "quantifier": "all requested levels and all prior contents of the dictionary, in exact arithmetic", "why_tests_cant": "a floating-point run shows one set of levels up to a tolerance; that no division by zero or empty logarithm is hit and that the result is the published formula is a statement about exact values", "anchors": ["scripts/p2p.py:356", "scripts/p2p.py:372", "src/itmlogic/preparatory_subroutines/qlrpfl.py"]}
{"id": "C74", "title": "Deviates survive rounding", "statement": "In any arithmetic that rounds like IEEE doubles do, qerf stays within 1e-5 of the normal tail, qerfi within 0.0051 of the exact deviate, every integer percentage has a finite deviate, 50 percent has deviate exactly 0, distinct percentages keep their order with a gap of at least 0.003, and qerf undoes qerfi up to 0.0021.", "quantifier": "all rounding arithmetics satisfying the stated laws, all levels", "why_tests_cant": "a run uses one arithmetic and finitely many levels; the bounds hold for every level and every rounding with the stated accuracy", "anchors": ["src/itmlogic/misc/qerf.py", "src/itmlogic/misc/qerfi.py"]}
{"id": "C75", "title": "The quantile formula survives rounding", "statement": "In any arithmetic that rounds like IEEE doubles do, the quantile formula of avar is answered in all four modes and is within 4e-9 dB of its exact value, and different integer confidence percentages give strictly ordered losses.", "quantifier": "all rounding arithmetics satisfying the stated laws, all coefficients of the sizes that occur, all reference attenuations up to 1e5 dB and deviates up to 10", "why_tests_cant": "rounding errors depend on every digit of the inputs; a bound over all inputs cannot be sampled", "anchors": ["src/itmlogic/statistics/avar.py:221"]}
{"id": "C76", "title": "The attenuation quantile survives rounding, climate constants included", "statement": "In any arithmetic that rounds like IEEE doubles do, avar answers within 4e-6 dB of exact arithmetic on the same dictionary values and deviates, whatever calls came before; different confidence percentages keep their strict order, and the order in time reliability is never turned round by more than 8e-6 dB.", "quantifier": "all rounding arithmetics satisfying the stated laws, all climates, all modes, all call histories, all dictionaries of the stated sizes, all deviates up to 10", "why_tests_cant": "a run uses one arithmetic, one climate and one link; the bound is over all of them and over every call history", "anchors": ["src/itmlogic/statistics/avar.py", "src/itmlogic/statistics/curv.py"]}
{"id": "C77", "title": "Rows of the point-to-point report survive rounding of the statistics", "statement": "In any arithmetic that rounds like IEEE doubles do, every row of the point-to-point report is within 5e-6 dB of exact arithmetic on the link as qlrpfl left it; rows of equal reliability are strictly ordered in confidence, rows of equal confidence ordered in reliability up to 1e-5 dB.", "quantifier": "all rounding arithmetics satisfying the stated laws, all runs whose prepared link is of the stated sizes, all lists of integer percentages", "why_tests_cant": "the tests compare six rows of one link in one arithmetic", "anchors": ["scripts/p2p.py:222", "src/itmlogic/statistics/avar.py", "src/itmlogic/misc/qerfi.py"]}
{"id": "C78", "title": "Irregularity is bounded by the relief", "statement": "If all heights of a profile lie between lo and hi, the terrain irregularity is not negative and at most 2.4 (hi - lo) before it is referred to long paths, at most 12 (hi - lo) after; the same holds for the value the point-to-point runner works with.", "quantifier": "all profiles, all windows inside the profile, all runs of the point-to-point runner", "why_tests_cant": "tests check single profiles; a resampling, fitting or ranking slip that only inflates the result on some terrain passes them", "anchors": ["src/itmlogic/preparatory_subroutines/dlthx.py", "src/itmlogic/preparatory_subroutines/zlsq1.py"]}
{"id": "C79", "title": "Raising an antenna never brings a horizon nearer", "statement": "For the horizons hzns finds on a profile over its whole length: raising one antenna by delta brings neither terminal's horizon nearer; the angle of the raised terminal sinks by at least delta over the path length and at most delta over the distance of its old horizon; the angle of the other terminal does not sink and rises by at most delta over the path length. So raising one antenna or both never raises the sum of the horizon angles, by which the diffracted and scattered rays bend, and a path with free sight keeps it. Raising terrain points between the terminals never lowers either horizon angle.", "quantifier": "every profile of positive spacing, all heights and curvatures, every rise", "why_tests_cant": "compares two runs of a loop with running state for every profile and every rise; the horizon jumps between points as the antenna rises", "anchors": ["src/itmlogic/preparatory_subroutines/hzns.py:hzns"]}
{"id": "C80", "title": "Every prediction lies in a known band around free space", "statement": "As long as no deviate exceeds 3.1 in size (the limit avar warns of), a quantile of avar lies at most 24 dB below free space and at most 160 dB above the reference attenuation (21 dB and 130 dB when location variability is eliminated); for the deviates of any percentages whatever, at most 38.2 dB below and 255 dB above. Whenever p2p.py answers, each printed loss lies between the free-space loss less 38.2 dB and the free-space loss plus the reference attenuation plus 255 dB, and for levels from 1 to 99 percent between less 21 dB and plus 130 dB. Whenever area.py answers, the same holds with 24 dB and 160 dB. Nothing is asked of the link.", "quantifier": "every climate, mode, frequency, distance, terrain, percentages; every reachable dictionary; every answered run of the two runners", "why_tests_cant": "a bound over a continuum of distances, frequencies and deviates in seven climates; the largest value sits between table entries", "anchors": ["src/itmlogic/statistics/avar.py:avar", "src/itmlogic/statistics/curv.py:curv", "scripts/p2p.py:itmlogic_p2p", "scripts/area.py:itmlogic_area"]}
{"id": "C81", "title": "Free space is Friis and the earth is the 4/3 earth", "statement": "The free-space loss the runners add is the Friis transmission loss 20 log10(4 pi d f / c) of the frequency and distance the user gave, up to a constant 0.00245 dB known to 0.00005 dB; a factor of two in distance or frequency costs 6.02 dB and a factor of ten 20 dB; the effective earth of area.py has 4/3 of the mean earth radius to 3 km and that of p2p.py a radius of 8711 km to 5 km; p2p.py answers only for links of positive length and frequency, and computes with exactly the distance the user gave, however the profile is spaced.", "quantifier": "all frequencies from 1 Hz to 10^15 Hz, all distances from 10^-6 m to 10^9 m, all dictionaries, profiles, levels and grids", "why_tests_cant": "The relation between 8.685890, 47.7, 157e-9, 0.04665, 179.3 and the constants of physics is a statement about real numbers at every frequency and distance; a test compares a few printed digits against digits produced by the same constants.", "anchors": ["scripts/p2p.py:115-165", "scripts/p2p.py:183", "scripts/area.py:149-160", "scripts/area.py:193", "src/itmlogic/preparatory_subroutines/qlrps.py:30-47"]}
{"id": "C82", "title": "Area rows and the bands around free space survive rounding", "statement": "In any arithmetic that rounds like doubles do: the rows of an area run come in groups, one per distance, each group computed from one dictionary with the user's frequency and irregularity and the group's distance; if that dictionary is of the usual sizes, every row is within 5e-6 dB of exact arithmetic on the same dictionary, more confidence reports strictly more loss, and for levels from 1 to 99 percent no loss lies more than 24.00001 dB below free space or more than 160.00001 dB above free space plus the reference attenuation. For point-to-point rows the band is 21.00001 dB and 130.00001 dB.", "quantifier": "every arithmetic satisfying the rounding laws, every answered run of the two runners, all levels, grids, siting codes, links", "why_tests_cant": "a statement about the accumulated rounding of every evaluation for every admissible arithmetic (libm, rounding mode), not of one machine's", "anchors": ["scripts/area.py:itmlogic_area", "scripts/p2p.py:itmlogic_p2p", "src/itmlogic/statistics/avar.py:avar", "src/itmlogic/misc/qerfi.py:qerfi"]}
{"id": "C83", "title": "The radio horizons survive rounding", "statement": "In any arithmetic that rounds like doubles do, for every profile of at most 1000 intervals of at least a metre (at most 4000 km in all, heights up to 10 km, slopes up to 45 degrees), hzns succeeds; each angle is the largest elevation angle up to 2e-10 rad (first terminal) and 2e-8 rad (second terminal), each distance is that of a point attaining it; against exact arithmetic on the same values the angles differ by no more, and where the exact horizon stands out by twice that the distances agree to the fractions 1e-11 and 1e-8.", "quantifier": "every arithmetic satisfying the rounding laws, every profile length and content in the size limits, all antenna heights and curvatures", "why_tests_cant": "accumulated rounding of a running sum and a running maximum with a gating flag over every profile and every admissible arithmetic", "anchors": ["src/itmlogic/preparatory_subroutines/hzns.py:hzns"]}
{"id": "C84", "title": "Confidence levels lie symmetrically about 50 percent", "statement": "Outside single message mode, the quantiles avar returns for opposite confidence deviates lie symmetrically about the one for deviate 0 when none is below free space, and their mean is never below it. Hence in every report of p2p.py and in every distance group of area.py the losses for confidence c and 100-c percent are equally far from the loss for 50 percent, at the same reliability, if neither is below free space.", "quantifier": "every reachable dictionary, climate, mode 1 to 3, deviate; every answered run of the two runners, every list of levels", "why_tests_cant": "a relation between three rows for all links and levels; the situation variance depends on the confidence deviate itself", "anchors": ["src/itmlogic/statistics/avar.py:avar", "scripts/p2p.py:itmlogic_p2p", "scripts/area.py:itmlogic_area"]}
{"id": "C85", "title": "Horizon angles are stable under height errors and denser sampling", "statement": "If no height of the profile is off by more than δ, no horizon angle is off by more than 2δ over the distance of the horizon found. Sampling the same broken line of terrain k times as densely never lowers a horizon angle and raises it by at most κξ²/8 (the bulge of the earth over one coarse interval) over the distance of the new horizon.", "quantifier": "every pair of profiles, every density factor, all antenna heights and curvatures", "why_tests_cant": "relations between two runs for all profiles and all sampling densities", "anchors": ["src/itmlogic/preparatory_subroutines/hzns.py:hzns"]}
{"id": "C86", "title": "Fitted line and terrain irregularity are stable under height errors", "statement": "If no height of the profile is off by more than δ, each end of the least-squares line moves by at most δ√(1+12r²), r being the distance of that end from the middle of the window in window lengths (2δ inside the window), and the terrain irregularity of the window moves by at most 6δ referred to the window length, never more than 30δ; so do the irregularities left in the dictionary by two surveys that both find the path clear.", "quantifier": "every pair of profiles, every window inside them, every error bound δ", "why_tests_cant": "a Lipschitz bound over all pairs of profiles and windows; the interdecile range sorts, so it is not smooth and sampling finds no worst case", "anchors": ["src/itmlogic/preparatory_subroutines/dlthx.py:dlthx", "src/itmlogic/preparatory_subroutines/zlsq1.py:zlsq1", "src/itmlogic/preparatory_subroutines/qlrpfl.py:qlrpfl"]}
{"id": "C87", "title": "Weaker refraction never opens a path", "statement": "A stronger effective curvature of the earth (smaller surface refractivity, or a system higher above the sea) puts no radio horizon farther away, lowers each horizon angle by between (κ'-κ)/2 times the new and the old horizon distance, never shrinks the bending angle θ0+θ1+Dκ of the path, and never turns an obstructed path into a clear one.", "quantifier": "every profile, all antenna heights, every pair of curvatures or of refractivities and system heights", "why_tests_cant": "a monotonicity law between two runs over all profiles; the horizon jumps from one point of the profile to another", "anchors": ["src/itmlogic/preparatory_subroutines/hzns.py:hzns", "src/itmlogic/preparatory_subroutines/qlrps.py:qlrps"]}
{"id": "C88", "title": "What the mode of variability and the reference attenuation do to a quantile", "statement": "Raising the reference attenuation by Δ raises every quantile by at least Δ/10 and at most Δ. At the median (all deviates 0) the kind of variability and the eliminated components do not matter. Eliminating location or situation variability never widens the spread: safe levels need no more loss, unsafe levels no less. At one common level for time, location and situation, single message spreads least and broadcast most, accidental and mobile lie between.", "quantifier": "every history of a dictionary that follows the lvar protocol, all deviates, every climate, distance, terrain, frequency and documented mode code", "why_tests_cant": "comparisons between two runs over a continuum of dictionaries and deviates; a test fixes finitely many", "anchors": ["src/itmlogic/statistics/avar.py:avar"]}
{"id": "C89", "title": "The fitted line and the terrain irregularity survive rounding", "statement": "In any arithmetic that rounds like doubles (any rounding mode treating both signs alike), for a profile of at most 1000 intervals with heights up to 10 km and a window inside it: zlsq1 returns the ends of the least-squares line of the very heights given to within a micrometre, over the samples of a window whose ends differ from the given ones by at most 1e-11 intervals; dlthx returns the irregularity of the very heights given to within 0.15 mm, in a window whose ends differ by at most 2e-11 intervals, or zero for windows shorter than two intervals. Away from the window ends and lengths at which the set of samples or the number of discarded values changes, both are that close to what exact arithmetic gives.", "quantifier": "every rounding arithmetic satisfying the laws of Spec.Rounding, every profile and window of the stated sizes", "why_tests_cant": "The accumulated roundoff of up to a thousand additions and of the repeated `xa = xa - 1` in the resampling loop depends on every height and spacing; a test sees one profile and cannot tell an error of the algorithm from roundoff. A misplaced cell at a boundary would only show for spacings at which a quotient rounds across an integer.", "anchors": ["src/itmlogic/preparatory_subroutines/zlsq1.py", "src/itmlogic/preparatory_subroutines/dlthx.py", "src/itmlogic/misc/qtile.py"]}
{"id": "C90", "title": "Over straight terrain the two modes agree", "statement": "Over straight terrain that does not fall towards the receiver, and on a path shorter than the two smooth-earth horizon distances together, the point-to-point mode derives from the profile exactly the parameters the area mode derives for randomly sited antennas over terrain of irregularity 0 (effective heights, horizon distances and angles, irregularity, markers). Therefore both modes compute the same reference attenuation at the path's distance, and the same attenuation quantile for every time, location and confidence deviate - or raise the same exception. The different formula of the weight of the diffraction set-up (10 is added in point-to-point mode) makes no difference. On terrain that falls towards the receiver the modes part by the fall of the last interval (C40).", "quantifier": "All profile lengths, spacings, ground levels, nonnegative slopes, antenna heights, frequencies, grounds, refractivities and deviates", "why_tests_cant": "It compares two different code paths (profile analysis with least squares, quantiles and horizon search against closed formulas) over an infinite family of profiles; a test compares finitely many.", "anchors": ["src/itmlogic/preparatory_subroutines/qlrpfl.py", "src/itmlogic/preparatory_subroutines/qlra.py", "src/itmlogic/lrprop.py", "src/itmlogic/diffraction_attenuation/adiff.py:36"]}
{"id": "C91", "title": "The figures show each confidence level under its own name - for the shipped levels only", "statement": "The two plotting functions draw one curve (or colour of bars) per confidence level of the table, from left to right, showing exactly the losses of that level; the vertical axis of the bar chart ends 50 dB above the largest loss. Every curve carries the name of its own level exactly if the levels in the table are 10 %, or 10 and 50 %, or 10, 50 and 90 % (in whatever order they were requested): so the figures of the shipped drivers are right, and the figure for any other levels mislabels a curve or leaves one out of the legend (5/50/95 % is shown as 10/50/90 %). A table with two rows for one axis value and level is refused.", "quantifier": "All tables of results: any axis values, levels and losses; all runs of both drivers with any lists of levels and any grid", "why_tests_cant": "The legend is hard-coded while curves are sorted by level, so correctness depends on the set of levels; tests of the drawing code do not exist and could only look at single tables.", "anchors": ["vis/vis.py:22", "vis/vis.py:46", "scripts/area.py:207", "scripts/p2p.py:223"]}
{"id": "C93", "title": "The path parameters of a point-to-point link survive rounding", "statement": "In every arithmetic that rounds like doubles do, the preparation of every path of ordinary size (at most 1000 intervals of at least a metre, at most 4000 km in all, heights up to 10 km, antennas of at least 0.5 m, slopes up to 45 degrees) succeeds, with finite parameters, positive horizon distances, effective heights not below the antenna heights and a non-negative terrain irregularity. If the exact horizons of the very numbers given stand out from the rest of the terrain, the path is taken for clear exactly if it is, and the parameters are those of the algorithm description up to a micrometre in the heights, 0.15 mm in the irregularity and small fractions of the horizons.", "quantifier": "every arithmetic satisfying the rounding laws, every path of ordinary size (profile length, terrain, antennas, curvature)", "why_tests_cant": "The parameters depend discontinuously on the horizons and on the windows of the profile, whose ends are rounded; tests see only single profiles, and a wrong choice shows up only where rounding decides.", "anchors": ["src/itmlogic/preparatory_subroutines/qlrpfl.py:7-90", "src/itmlogic/preparatory_subroutines/hzns.py:1-64", "src/itmlogic/preparatory_subroutines/zlsq1.py:3-65", "src/itmlogic/preparatory_subroutines/dlthx.py:5-69"]}
{"id": "C94", "title": "In area mode higher antennas and better siting never shorten a horizon", "statement": "Within the limits of the model (antennas of at least 0.5 m) raising an antenna lowers no effective height, shortens no horizon distance and raises no horizon angle, for every siting and every terrain irregularity; better siting shortens no horizon distance and raises no horizon angle; rougher ground lowers no effective height, and for antennas sited at random it extends no horizon distance and lowers no horizon angle. Below the limits the first claim fails: an antenna of 0.1 m can be given more effective height than one of 0.2 m.", "quantifier": "all antenna heights, siting codes, irregularities and earth curvatures", "why_tests_cant": "The siting bonus decays with the antenna height, so that monotonicity depends on a balance of slopes that is almost tight at 0.5 m; tests at a few heights do not see where it tips.", "anchors": ["src/itmlogic/preparatory_subroutines/qlra.py:27-57"]}
{"id": "C95", "title": "With growing precision lrprop approaches the published attenuation at the rate of the precision", "statement": "Take any family of arithmetics whose errors ε tend to 0 (floating-point numbers of more and more digits, fixed-point numbers, …), and inputs known to precision ε. For every link with positive heights, horizon distances, wave number, curvature, terrain irregularity and ground resistance on which the exact computation returns and meets none of the thresholds where the algorithm changes its formula, the first call of lrprop returns in all sufficiently precise arithmetics of the family, and the attenuation it leaves differs from the reference attenuation of the published algorithm by at most a constant times ε.", "quantifier": "all families of arithmetics with errors tending to 0; all links and distances in general position, below and beyond the horizon, area and point-to-point; all rounded inputs", "why_tests_cant": "Tests compare a few results in double precision with reference figures. Whether every formula of the chain is numerically sound at every link (no step whose error is of a larger order than the precision, no exception provoked by rounding) is a statement about all links and all arithmetics.", "anchors": ["src/itmlogic/lrprop.py:lrprop", "src/itmlogic/diffraction_attenuation/adiff.py:adiff", "src/itmlogic/los_attenuation/alos.py:alos", "src/itmlogic/scatter_attenuation/ascat.py:ascat"]}
{"id": "C96", "title": "With growing precision the predicted loss approaches the published loss at the rate of the precision", "statement": "In any family of arithmetics whose errors ε tend to 0, on inputs and deviates known to precision ε: (quantile) a call of avar that brings everything up to date returns in all sufficiently precise arithmetics, and its answer differs from the published quantile by at most a constant times ε, at every distance, climate, kind of variability (situation variability kept) and for all deviates, without exception for the median, the knee of the time distribution, the change of the effective distance or the onset of softening, where the code changes its formula; (loss) lrprop, avar and the free-space loss run one after the other, and their sum differs from the published loss of the link by at most a constant times ε, for every link and distance in general position.", "quantifier": "all families of arithmetics with errors tending to 0; all climates, kinds of variability, deviates, distances, links in general position; all rounded inputs", "why_tests_cant": "The spread in time jumps at the median, which is the level everybody asks for and where rounding decides which branch is taken; that the jump never shows in the answer, at any link and in any arithmetic, is not visible from finitely many runs.", "anchors": ["src/itmlogic/statistics/avar.py:avar", "src/itmlogic/statistics/curv.py:curv", "src/itmlogic/lrprop.py:lrprop", "scripts/area.py:184-212"]}
{"id": "C97", "title": "Rows of an area prediction in growing precision", "statement": "With any family of arithmetics whose operations err by a vanishing epsilon, an area prediction in general position finally returns, has as many rows as the exact program, each with the same confidence level, and its distances and losses approach those of the exact program with error O(epsilon). Beyond the horizon the limit is the published loss; within line of sight it is the loss for the attenuation of the first distance. Predictions that start beyond the horizon are answered unless the diffraction and the scatter line are parallel.", "quantifier": "every user dictionary (positive frequency, heights, irregularity), polarization, siting criteria, grid, levels, and every family of arithmetics; general position at each distance of the run", "why_tests_cant": "A test runs one precision at a time; whether the differences between two precisions are rounding or a discontinuity needs the limit, over all inputs and all distances of the sweep with its carried state.", "anchors": ["scripts/area.py:33-221", "src/itmlogic/preparatory_subroutines/qlra.py:qlra", "src/itmlogic/misc/qerfi.py:qerfi", "src/itmlogic/lrprop.py:lrprop", "src/itmlogic/statistics/avar.py:avar"]}
{"id": "C98", "title": "Path parameters in growing precision", "statement": "With any family of arithmetics whose operations err by a vanishing epsilon, the preparation of a terrain profile in general position finally returns, and path length, effective heights, horizon distances and angles and the terrain irregularity approach those of exact arithmetic with error O(epsilon): the published parameters on obstructed paths and on clear ones whose last two points are of one height, those for a receiver on the last but one point otherwise. General position means: the horizons stand out from the other points, no fitting window begins or ends exactly at a sample, the window of the irregularity does not have one of the lengths where the number of values used jumps, and on clear paths the terrain is not exactly flat and the estimated horizons do not just reach over the path.", "quantifier": "every profile of at least two points, positive spacing, antenna heights and curvature, and every family of arithmetics; general position", "why_tests_cant": "A test runs one precision at a time; that truncations, quantile selection and the horizon scan take the same branches from some precision on, for every profile, needs a limit argument over all of them.", "anchors": ["src/itmlogic/preparatory_subroutines/qlrpfl.py:qlrpfl", "src/itmlogic/preparatory_subroutines/hzns.py:hzns", "src/itmlogic/preparatory_subroutines/dlthx.py:dlthx", "src/itmlogic/preparatory_subroutines/zlsq1.py:zlsq1", "src/itmlogic/misc/qtile.py:qtile"]}
{"id": "C99", "title": "Point-to-point program in growing precision", "statement": "With any family of arithmetics whose operations err by a vanishing epsilon, fed with inputs that approach the user's frequency, distance, antenna heights and terrain heights, the whole point-to-point program (setup, profile preparation, reference attenuation, variability, rows) finally returns whenever the exact one does, with as many rows, in the same order and with the same labels; distances and losses approach those of exact arithmetic with error O(epsilon), that is the published losses of the link the profile describes (on clear paths: for a receiver on the last point but one). If the path length is off the sum of smooth-earth horizon distances by more than half a sample interval, the reported class of the path and the remark on diffraction are finally the exact ones. Profile and link are in general position, the irregularity of the terrain is not zero, and no requested percentage has a deviate halfway between two numbers of four decimals.", "quantifier": "every profile of at least two points, positive frequency, distance and antenna heights, every choice of percentages and every family of arithmetics; general position; exact run returns", "why_tests_cant": "A test runs one precision on a few profiles; that no step of the chain from profile to loss table amplifies rounding without bound, for every profile off the thresholds, needs a limit argument over all of them.", "anchors": ["scripts/p2p.py:itmlogic_p2p", "src/itmlogic/preparatory_subroutines/qlrpfl.py:qlrpfl", "src/itmlogic/lrprop.py:lrprop", "src/itmlogic/statistics/avar.py:avar", "src/itmlogic/misc/qerfi.py:qerfi"]}
{"id": "C92", "title": "Measurement campaign in growing precision", "statement": "With any family of arithmetics whose operations err by a vanishing epsilon, fed with terrain heights and distances that approach the user's, the measurement-campaign program finally returns whenever the exact one does, with as many rows in the same order and for the same level; frequencies, antenna heights and losses approach those of exact arithmetic with error O(epsilon), that is the published loss, for each of the 121 heights, of the link the terrain describes for that height alone (receiver on the last point but one), although every row is computed in the dictionary the row before it left. The deviates of the two levels are not halfway between two numbers of four decimals, and for each height the path and its link are in general position and the irregularity of the terrain is not zero.", "quantifier": "every terrain and list of distances of at least two points with increasing first two distances, every pair of levels, every unused dictionary and every family of arithmetics; general position for each height; exact run returns", "why_tests_cant": "A test runs one precision on one campaign; that rounding neither accumulates over 121 turns sharing one dictionary nor is amplified without bound on any terrain off the thresholds needs a limit argument and an invariant of the loop.", "anchors": ["scripts/pimter.py:run_itmlogic", "src/itmlogic/preparatory_subroutines/qlrpfl.py:qlrpfl", "src/itmlogic/lrprop.py:lrprop", "src/itmlogic/statistics/avar.py:avar", "src/itmlogic/misc/qerfi.py:qerfi"]}
{"id": "C100", "title": "Small errors of the inputs make small errors of the predictions", "statement": "Around every prediction in general position there are a size delta0 and a constant K such that for every delta < delta0 and every input that is off by at most delta the program still answers, with as many rows, the same labels, and no distance or loss off by more than K * delta: point-to-point (frequency, distance, antenna heights, every single terrain height), area (frequency, antenna heights, terrain irregularity, grid constants), measurement campaign (every terrain height and distance, all 121 antenna heights). For avar alone this holds at every parameter, deviate, climate and kind of variability with situation variability, also at the median and at the other points where the code changes its formula.", "quantifier": "every prediction in general position, every perturbation of its inputs of every size below delta0", "why_tests_cant": "A test perturbs a few inputs of one prediction by a few amounts; continuity with a linear rate, uniformly over all directions in the space of all terrain heights, and that no perturbed run raises, cannot be sampled.", "anchors": ["scripts/p2p.py:itmlogic_p2p", "scripts/area.py:itmlogic_area", "scripts/pimter.py:run_itmlogic", "src/itmlogic/statistics/avar.py:avar"]}
{"id": "C101", "title": "The guarantees that survive rounding hold for IEEE 754 doubles", "statement": "The double precision numbers with infinities, NaN, signed zeros, subnormal numbers and overflow, rounded to the nearest with ties to even, satisfy the laws under which the rounding guarantees (deviates, quantile formula, rows, horizons, fitted line, irregularity, path parameters) are proved, with every library of mathematical functions accurate to four units in the last place. In particular, computed in doubles the deviates of whole percentages are finite, 0 at 50 percent and ordered with a gap of 0.003, qerfi is within 0.0051 of the exact deviate, and the preparation of every path of ordinary size returns finite parameters.", "quantifier": "all doubles, all accurate libraries of mathematical functions, all percentages, all paths of ordinary size", "why_tests_cant": "A test samples a few of 2^64 numbers on one machine with one library; the laws speak of all operands and every library within the error bound.", "anchors": ["src/itmlogic/misc/qerfi.py:qerfi", "src/itmlogic/misc/qerf.py:qerf", "src/itmlogic/preparatory_subroutines/qlrpfl.py:qlrpfl"]}
{"id": "C102", "title": "The elementary attenuation functions survive rounding", "statement": "Computed in doubles (or any rounding arithmetic), the knife-edge attenuation aknfe, the height-gain function fht, the weight between the diffraction formulas, the frequency gain h0f and the scatter function ahd return finite values within 1e-11, 2e-8, 1e-10, 1e-10 and 1e-9 of exact arithmetic on the same inputs, for all inputs of ordinary size. Exceptions: inputs within 1e-14 of the parameter 5.76 of aknfe, where rounding may pick the other formula and the error stays below 0.02 dB, and inputs of fht within tiny distances of the lines pk = 1e-5 and x w^3 = 5495. The first exception occurs: at the double nearest to 5.76 the computed attenuation is more than 0.01 dB too small.", "quantifier": "all rounding arithmetics, in particular doubles with every accurate library; all finite inputs of ordinary size, all layer parameters", "why_tests_cant": "The inputs form a continuum; which inputs fall on the wrong side of a branch depends on the rounding of one literal or of one product, and a sampled test never meets them.", "anchors": ["src/itmlogic/diffraction_attenuation/aknfe.py:aknfe", "src/itmlogic/diffraction_attenuation/fht.py:fht", "src/itmlogic/diffraction_attenuation/adiff.py:adiff", "src/itmlogic/scatter_attenuation/h0f.py:h0f", "src/itmlogic/scatter_attenuation/ahd.py:ahd"]}
{"id": "C103", "title": "The diffraction attenuation at one distance survives rounding", "statement": "On links of ordinary size beyond the horizons (distance up to 10000 km, positive bending angle between 1e-4 and 1, wave number 0.01 to 10000, terms of the earlier initialising call in range), adiff computed in doubles (or any rounding arithmetic) returns a finite value, leaves the state as it is, and is within 0.05 dB of exact arithmetic on the same numbers; within 0.0001 dB unless the Fresnel parameter of an obstacle is within 1e-6 of 5.76, where the knife-edge formulas change. The difference between two distances of one link is right within 0.1 dB.", "quantifier": "all rounding arithmetics, in particular doubles with every accurate library; all states and distances of ordinary size", "why_tests_cant": "The state has thirteen real numbers; the errors of a cancelling angle sum, a cube root and two branchy knife edges combine, and no sample bounds their worst combination.", "anchors": ["src/itmlogic/diffraction_attenuation/adiff.py:adiff", "src/itmlogic/diffraction_attenuation/aknfe.py:aknfe"]}
{"id": "C104", "title": "The irregularity of a cell is that of its terrain", "statement": "The terrain irregularity parameter of an area prediction is the rounded interdecile range of the measured heights inside the cell. This holds when the raster rectangle around the cell contains measured pixels of the cell only. In general the code takes the deciles of the whole rectangle, gaps counting as -9999 m: a flat cell may get any irregularity from the corners, gaps in more than a tenth of the rectangle give about 10 km, and the file of the area program is then that of the wrong irregularity. While at most a tenth of the rectangle is foreign, the result is at most the range of heights in the cell.", "quantifier": "all rasters, all cells, all heights", "why_tests_cant": "The result is right whenever the corners resemble the cell, so any test on homogeneous terrain passes; which share of foreign pixels matters is a statement about all rasters.", "anchors": ["scripts/terrain_module.py:terrain_area", "scripts/terrain_module.py:interdecile_range", "scripts/area.py:252-301"]}
{"id": "C105", "title": "The scatter attenuation at one distance survives rounding", "statement": "On links of ordinary size (distance up to 10000 km, scatter angle and angular distance between 1e-4 and 1, scatter parameters between 1e-5 and 1e5), ascat computed in doubles (or any rounding arithmetic) returns a finite attenuation within 0.0001 dB of the published formulas at the same numbers, provided the argument of the attenuation curve is at least 0.001 away from the two places where its formula changes and a gain that decides between two values is at least 0.001 dB away from 15 dB. The fresh frequency gain is within 0.00006 dB without these provisos: the switch to the formula for small efficiencies and the rows of the gain table cause no jump.", "quantifier": "all rounding arithmetics, in particular doubles with every accurate library; all states and distances of ordinary size", "why_tests_cant": "The state has twelve real numbers; the efficiency comes from a sixth power under an exponential multiplied by a crossover height of up to 2500 km, and a wrong branch at efficiency one would only show in inputs that round across it. Tests compare a handful of attenuations with a tolerance.", "anchors": ["src/itmlogic/scatter_attenuation/ascat.py:ascat", "src/itmlogic/scatter_attenuation/h0f.py:h0f", "src/itmlogic/scatter_attenuation/ahd.py:ahd"]}
{"id": "C106", "title": "The line-of-sight attenuation at one distance survives rounding", "statement": "On links of ordinary size (distance 1 m to 10000 km, effective heights 1 cm to 100 km, wave number 0.01 to 10000, irregularity 1 mm to 10 km, ground impedance with real part 0.001 to 1000), alos computed in doubles (or any rounding arithmetic) returns a finite attenuation within 0.0005 dB of the published two-ray formulas at the same numbers, provided smooth ground reflects at least a thousandth, the squared reflection coefficient is at least 1e-8 away from 1/4 at small grazing angles (where the code makes it jump), and the two waves do not cancel to less than a thousandth. The effective reflection coefficient is within 1e-8 and the phase within 1e-13 without the last proviso.", "quantifier": "all rounding arithmetics with accurate sine and cosine, in particular doubles with every accurate library; all states and distances of ordinary size", "why_tests_cant": "The state has nine real numbers; complex division, an exponential, a jump of the reflection coefficient and the cancellation of two waves combine, and where waves cancel any error is amplified without limit by the logarithm. Tests compare a handful of attenuations.", "anchors": ["src/itmlogic/los_attenuation/alos.py:alos"]}
{"id": "C107", "title": "The environment parameters survive rounding", "statement": "For frequencies of 1 to 100000 MHz, elevations up to 10 km either way, refractivities of 1 to 1000 reduced to at most 500 at the surface, permittivities of 2 to 100 and conductivities of 0.00001 to 10 S/m, qlrps computed in doubles (or any rounding arithmetic) does not raise, returns finite numbers only, and they are next to the published formulas at the same inputs: wave number within 3.1e-15 and surface refractivity within 7e-15 relative, effective curvature within 2e-20, and the surface transfer impedance within 1e-10 of the one complex number that is the root of the permittivity less one in the right half plane (divided by the permittivity for vertical polarization).", "quantifier": "all rounding arithmetics, in particular doubles with every accurate library; all inputs in the stated ranges, both polarizations", "why_tests_cant": "Five real inputs pass through an exponential of an exponential, a complex square root and a complex division, each with several branches and cancellations that only occur for some inputs. Tests compare one set of inputs to a few decimals.", "anchors": ["src/itmlogic/preparatory_subroutines/qlrps.py:qlrps"]}
{"id": "C108", "title": "Only refractivity and frequency make lrprop reject an environment prepared by qlrps", "statement": "When the environment (wave number, refractivity, curvature, impedance) comes from qlrps run in doubles or any rounding arithmetic with inputs in the ranges of C107, no error was reported before and the antenna heights are between 0.5 and 3000 m, lrprop reports error code 4 exactly if the surface refractivity by the published formula is outside 250 to 400 or the wave number outside 0.419 to 420, provided neither lies within 1e-9 of a limit. The checks of the curvature and of the phase of the impedance never decide, also not by rounding. The prepared wave number and impedance also lie in the ranges the rounding theorem on line-of-sight attenuation (C106) asks for, with the imaginary part never above the real part.", "quantifier": "all rounding arithmetics, in particular doubles with every accurate library; all inputs in the stated ranges at least 1e-9 away from the limits, both polarizations, all paths", "why_tests_cant": "For good conductors the real and imaginary part of the impedance agree to many digits (vertical polarization to within 1e-8), so whether rounding can reverse the comparison depends on five real inputs; no finite set of tests excludes it.", "anchors": ["src/itmlogic/lrprop.py:73-76", "src/itmlogic/preparatory_subroutines/qlrps.py:qlrps"]}
