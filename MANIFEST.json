{
 "claims": [
  {
   "property": "C01",
   "status": "proved",
   "theorems": [
    "Itm.Props.C01_qtile_rank",
    "Itm.Props.C01_qtile_rank_neg",
    "Itm.Props.C01_qtile_perm",
    "Itm.Props.C01_qtile_error"
   ],
   "note": ""
  },
  {
   "property": "C02",
   "status": "proved",
   "theorems": [
    "Itm.Props.C02_qerf_probability",
    "Itm.Props.C02_qerf_complement",
    "Itm.Props.C02_qerf_saturates",
    "Itm.Props.C02_qerf_zero",
    "Itm.Props.C02_qerf_zero_not_half"
   ],
   "note": ""
  },
  {
   "property": "C03",
   "status": "proved",
   "theorems": [
    "Itm.Props.C03_qerf_antitone"
   ],
   "note": ""
  },
  {
   "property": "C04",
   "status": "proved",
   "theorems": [
    "Itm.Props.C04_qerfi_append",
    "Itm.Props.C04_qerfi_entries",
    "Itm.Props.C04_qerfi_total"
   ],
   "note": ""
  },
  {
   "property": "C05",
   "status": "proved",
   "theorems": [
    "Itm.Props.C05_qerfi_antitone",
    "Itm.Props.C05_qerfi_half",
    "Itm.Props.C05_qerfi_antisymmetric",
    "Itm.Props.C05_qerfi_saturates"
   ],
   "note": ""
  },
  {
   "property": "C06",
   "status": "partial",
   "theorems": [
    "Itm.Props.C06_fifty",
    "Itm.Props.C06_p2p_partial",
    "Itm.Props.C06_area_partial",
    "Itm.Props.C06_refuted",
    "Itm.Props.C06_blind_refuted"
   ],
   "note": "p2p and area rows use the deviates of their percentages (partial theorems); pimter.py does not divide by 100 (refuted with the resulting excess loss)."
  },
  {
   "property": "C07",
   "status": "proved",
   "theorems": [
    "Itm.Props.C07_avar_caching_invisible"
   ],
   "note": ""
  },
  {
   "property": "C08",
   "status": "proved",
   "theorems": [
    "Itm.Props.C08_avar_idempotent",
    "Itm.Props.C08_avar_consumes_lvar",
    "Itm.Props.C08_avar_untouched"
   ],
   "note": ""
  },
  {
   "property": "C09",
   "status": "proved",
   "theorems": [
    "Itm.Props.C09_avar_antitone_zc"
   ],
   "note": "avar decreases as the confidence deviate grows"
  },
  {
   "property": "C10",
   "status": "proved",
   "theorems": [
    "Itm.Props.C10_avar_antitone_zt",
    "Itm.Props.C10_avar_antitone_zl"
   ],
   "note": "avar decreases as the time and location deviates grow, under the stated modes"
  },
  {
   "property": "C11",
   "status": "proved",
   "theorems": [
    "Itm.Props.C11_single_message_ignores",
    "Itm.Props.C11_accidental_ignores",
    "Itm.Props.C11_mobile_ignores"
   ],
   "note": ""
  },
  {
   "property": "C12",
   "status": "proved",
   "theorems": [
    "Itm.Props.C12_avar_soften",
    "Itm.Props.C12_avar_mono_aref"
   ],
   "note": "monotone in the reference attenuation, with the softening formula below zero"
  },
  {
   "property": "C13",
   "status": "proved",
   "theorems": [
    "Itm.Props.C13_valid_code",
    "Itm.Props.C13_invalid_code"
   ],
   "note": ""
  },
  {
   "property": "C14",
   "status": "proved",
   "theorems": [
    "Itm.Props.C14_valid_climate",
    "Itm.Props.C14_invalid_climate",
    "Itm.Props.C14_lookup_total"
   ],
   "note": ""
  },
  {
   "property": "C15",
   "status": "proved",
   "theorems": [
    "Itm.Props.C15_curv_zero",
    "Itm.Props.C15_curv_range",
    "Itm.Props.C15_deviations"
   ],
   "note": "curv bounds and nonnegative deviations for all climates"
  },
  {
   "property": "C16",
   "status": "proved",
   "theorems": [
    "Itm.Props.C16_kwx_cumulative"
   ],
   "note": "every history of calls and parameter changes"
  },
  {
   "property": "C17",
   "status": "partial",
   "theorems": [
    "Itm.Props.C17_hard_limit",
    "Itm.Props.C17_kwx_zero_partial",
    "Itm.Props.C17_kwx_zero_refuted",
    "Itm.Props.C17_marker_exact",
    "Itm.Props.C17_marker_partial"
   ],
   "note": "Hard-limit half proved in full. The marker is characterised exactly (C17_marker_exact) and equals the documented level whenever both horizon distances are on the same side of three times the first smooth-earth distance (C17_marker_partial); without that the claim is refuted (lrprop.py line 65 tests dl[1])."
  },
  {
   "property": "C18",
   "status": "proved",
   "theorems": [
    "Itm.Props.C18_aref_nonneg"
   ],
   "note": "every successful call"
  },
  {
   "property": "C19",
   "status": "proved",
   "theorems": [
    "Itm.Props.C19_formulas_meet",
    "Itm.Props.C19_continuous"
   ],
   "note": "Agreement of the formulas at dlsa and dx in every sweep state, and continuity of aref on (0, inf) for every preparation that answers all distances."
  },
  {
   "property": "C20",
   "status": "partial",
   "theorems": [
    "Itm.Props.C20_sweep_partial",
    "Itm.Props.C20_stale_answer",
    "Itm.Props.C20_which",
    "Itm.Props.C20_sweep_refuted"
   ],
   "note": "Holds when no earlier distance, or not the asked one, lies below dlsa (exceptions included). The full claim is refuted: later line-of-sight distances return the previous answer (lrprop.py 160-164 nested under wlos == 0). C20_which says for every sweep at which of its distances the answer belongs."
  },
  {
   "property": "C21",
   "status": "proved",
   "theorems": [
    "Itm.Props.C21_p2p_ignores_argument",
    "Itm.Props.C21_p2p_keeps",
    "Itm.Props.C21_area_takes"
   ],
   "note": "both modes, every arithmetic"
  },
  {
   "property": "C22",
   "status": "proved",
   "theorems": [
    "Itm.Props.C22_trigger_independent",
    "Itm.Props.C22_continuing_keeps",
    "Itm.Props.C22_triggers"
   ],
   "note": "Over arbitrary arithmetic."
  },
  {
   "property": "C23",
   "status": "partial",
   "theorems": [
    "Itm.Props.C23_reciprocal",
    "Itm.Props.C23_both_or_none",
    "Itm.Props.C23_kwx_partial",
    "Itm.Props.C23_kwx_refuted",
    "Itm.Props.C23_kwx_exact"
   ],
   "note": "aref and all coefficients: proved in full, success of both ends is equivalent. The kwx half is refuted; C23_kwx_exact says exactly when the markers agree."
  },
  {
   "property": "C24",
   "status": "proved",
   "theorems": [
    "Itm.Props.C24_monotone",
    "Itm.Props.C24_fit_below_horizon"
   ],
   "note": "Across all three regions, for every preparation."
  },
  {
   "property": "C25",
   "status": "proved",
   "theorems": [
    "Itm.Props.C25_divisor_pos",
    "Itm.Props.C25_signs",
    "Itm.Props.C25_fit_exists",
    "Itm.Props.C25_interpolates"
   ],
   "note": "Divisor positive, signs, existence of the fit, interpolation when no repair happens."
  },
  {
   "property": "C26",
   "status": "proved",
   "theorems": [
    "Itm.Props.C26_blend",
    "Itm.Props.C26_setup",
    "Itm.Props.C26_setup_values"
   ],
   "note": "blend, weight and set-up constants of adiff"
  },
  {
   "property": "C27",
   "status": "partial",
   "theorems": [
    "Itm.Props.C27_total",
    "Itm.Props.C27_floor",
    "Itm.Props.C27_monotone_partial",
    "Itm.Props.C27_monotone_refuted"
   ],
   "note": "total and floor proved; monotonicity refuted (drop at 5.76 and at 0), bounded by 0.03 dB"
  },
  {
   "property": "C28",
   "status": "proved",
   "theorems": [
    "Itm.Props.C28_blend",
    "Itm.Props.C28_between",
    "Itm.Props.C28_far",
    "Itm.Props.C28_near"
   ],
   "note": "all four branches of fht characterised"
  },
  {
   "property": "C29",
   "status": "proved",
   "theorems": [
    "Itm.Props.C29_blend",
    "Itm.Props.C29_weight",
    "Itm.Props.C29_two_ray_floor"
   ],
   "note": "blend, weight range, two-ray formula and floor"
  },
  {
   "property": "C30",
   "status": "proved",
   "theorems": [
    "Itm.Props.C30_domain",
    "Itm.Props.C30_shape",
    "Itm.Props.C30_floor",
    "Itm.Props.C30_jumps"
   ],
   "note": "domain, shape, floor, jumps"
  },
  {
   "property": "C31",
   "status": "proved",
   "theorems": [
    "Itm.Props.C31_total",
    "Itm.Props.C31_monotone",
    "Itm.Props.C31_constant",
    "Itm.Props.C31_table"
   ],
   "note": "totality, order, constancy, table values"
  },
  {
   "property": "C32",
   "status": "partial",
   "theorems": [
    "Itm.Props.C32_overwritten",
    "Itm.Props.C32_refuted",
    "Itm.Props.C32_fallback_partial",
    "Itm.Props.C32_not_remembered_partial"
   ],
   "note": "refuted: sentinel overwritten, with its consequence for a shipped program in C71_flat_refuted; remaining parts proved"
  },
  {
   "property": "C33",
   "status": "proved",
   "theorems": [
    "Itm.Props.C33_least_squares",
    "Itm.Props.C33_unique",
    "Itm.Props.C33_affine",
    "Itm.Props.C33_straight"
   ],
   "note": ""
  },
  {
   "property": "C34",
   "status": "partial",
   "theorems": [
    "Itm.Props.C34_accepts_partial",
    "Itm.Props.C34_refuted",
    "Itm.Props.C34_reads_spacing",
    "Itm.Props.C34_raises_iff"
   ],
   "note": "violated: a window that is one sample raises ZeroDivisionError, at the first sample the spacing is read as a height; proved for all other windows (C34_raises_iff: exactly these raise)"
  },
  {
   "property": "C35",
   "status": "proved",
   "theorems": [
    "Itm.Props.C35_horizons",
    "Itm.Props.C35_determined",
    "Itm.Props.C35_both_or_neither"
   ],
   "note": ""
  },
  {
   "property": "C36",
   "status": "proved",
   "theorems": [
    "Itm.Props.C36_angles"
   ],
   "note": "distances are exchanged too when no two points have the same angle"
  },
  {
   "property": "C37",
   "status": "proved",
   "theorems": [
    "Itm.Props.C37_value",
    "Itm.Props.C37_determined",
    "Itm.Props.C37_nonneg",
    "Itm.Props.C37_affine",
    "Itm.Props.C37_straight"
   ],
   "note": ""
  },
  {
   "property": "C38",
   "status": "proved",
   "theorems": [
    "Itm.Props.C38_heights",
    "Itm.Props.C38_total",
    "Itm.Props.C38_bounds",
    "Itm.Props.C38_siting",
    "Itm.Props.C38_siting_qlra",
    "Itm.Props.C38_only_usable"
   ],
   "note": "Over the reals."
  },
  {
   "property": "C39",
   "status": "proved",
   "theorems": [
    "Itm.Props.C39_total",
    "Itm.Props.C39_frame",
    "Itm.Props.C39_reach"
   ],
   "note": "proved for np >= 1"
  },
  {
   "property": "C40",
   "status": "partial",
   "theorems": [
    "Itm.Props.C40_obstructed_partial",
    "Itm.Props.C40_transmitter",
    "Itm.Props.C40_refuted"
   ],
   "note": "violated on clear paths (pfl[np+1] is read), proved on obstructed paths and for the first terminal"
  },
  {
   "property": "C41",
   "status": "proved",
   "theorems": [
    "Itm.Props.C41_values",
    "Itm.Props.C41_scaling",
    "Itm.Props.C41_curvature",
    "Itm.Props.C41_curvature_anti",
    "Itm.Props.C41_impedance"
   ],
   "note": ""
  },
  {
   "property": "C42",
   "status": "proved",
   "theorems": [
    "Itm.Props.C42_rows",
    "Itm.Props.C42_shipped",
    "Itm.Props.C42_independent"
   ],
   "note": "row shape for arbitrary requested levels and for the shipped ones; every row is free-space loss plus the answer of a fresh statistics computation (arbitrary arithmetic)"
  },
  {
   "property": "C43",
   "status": "proved",
   "theorems": [
    "Itm.Props.C43_across",
    "Itm.Props.C43_ordered"
   ],
   "note": "over the reals, for every run that returns"
  },
  {
   "property": "C44",
   "status": "proved",
   "theorems": [
    "Itm.Props.C44_no_leak",
    "Itm.Props.C44_rerun"
   ],
   "note": "arbitrary arithmetic with a total order; a rerun on the mutated dictionary returns the same rows and messages"
  },
  {
   "property": "C45",
   "status": "proved",
   "theorems": [
    "Itm.Props.C45_no_leak",
    "Itm.Props.C45_rerun"
   ],
   "note": "Over any totally ordered arithmetic; also rerunning on the returned dictionary."
  },
  {
   "property": "C46",
   "status": "partial",
   "theorems": [
    "Itm.Props.C46_grid",
    "Itm.Props.C46_start",
    "Itm.Props.C46_shipped",
    "Itm.Props.C46_refuted",
    "Itm.Props.C46_unbound",
    "Itm.Props.C46_accepted_partial"
   ],
   "note": "The grid is characterised for D0 < D1; grids with D1 <= D0 are refuted (never answered)."
  },
  {
   "property": "C47",
   "status": "partial",
   "theorems": [
    "Itm.Props.C47_p2p_partial",
    "Itm.Props.C47_pimter_partial",
    "Itm.Props.C47_refuted",
    "Itm.Props.C47_area_partial"
   ],
   "note": "p2p and pimter proved; area: wn, gme, ens proved, impedance within 2.41/fmhz; equality refuted for every frequency."
  },
  {
   "property": "C48",
   "status": "partial",
   "theorems": [
    "Itm.Props.C48_path",
    "Itm.Props.C48_never_raises",
    "Itm.Props.C48_one_class",
    "Itm.Props.C48_class_meaning",
    "Itm.Props.C48_refuted",
    "Itm.Props.C48_dominant_partial"
   ],
   "note": "never raises, exactly one class, exact meaning of the classes, also in terms of the profile (C48_path); the no-contradiction part is refuted (C48_refuted: every line-of-sight path prints 'Diffraction is the dominant mode') and C48_dominant_partial says what holds"
  },
  {
   "property": "C49",
   "status": "proved",
   "theorems": [
    "Itm.Props.C49_range",
    "Itm.Props.C49_zero",
    "Itm.Props.C49_mono",
    "Itm.Props.C49_full"
   ],
   "note": "Over exact reals with round half to even."
  },
  {
   "property": "C50",
   "status": "partial",
   "theorems": [
    "Itm.Props.C50_spacing_partial",
    "Itm.Props.C50_refuted"
   ],
   "note": "Equal spacing from the transmitter proved; the receiver end is refuted for every line."
  },
  {
   "property": "C51",
   "status": "proved",
   "theorems": [
    "Itm.Props.C51_deciles",
    "Itm.Props.C51_range",
    "Itm.Props.C51_perm",
    "Itm.Props.C51_shift",
    "Itm.Props.C51_constant",
    "Itm.Props.C51_empty"
   ],
   "note": "Over exact reals; deciles characterised by counting."
  },
  {
   "property": "C52",
   "status": "proved",
   "theorems": [
    "Itm.Props.C52_rows",
    "Itm.Props.C52_surface_unused",
    "Itm.Props.C52_shipped"
   ],
   "note": "Row independence, the unused surface profile, and the rows of the shipped campaign."
  },
  {
   "property": "C53",
   "status": "proved",
   "theorems": [
    "Itm.Props.C53_p2p",
    "Itm.Props.C53_area",
    "Itm.Props.C53_pimter"
   ],
   "note": "Level trans-horizon links for all three runners."
  },
  {
   "property": "C54",
   "status": "proved",
   "theorems": [
    "Itm.Props.C54_qerf_accuracy",
    "Itm.Props.C54_qerf_accuracy_far"
   ],
   "note": "|qerf z - P(N > z)| <= 1e-5 on the whole line, against Mathlib's Gaussian measure"
  },
  {
   "property": "C55",
   "status": "proved",
   "theorems": [
    "Itm.Props.C55_qerfi_accuracy",
    "Itm.Props.C55_qerfi_accuracy_list",
    "Itm.Props.C55_round_trip"
   ],
   "note": "|qerfi - exact deviate| <= 0.0051 for tail probabilities in [1e-6, 1-1e-6]; round trip within 0.0021 on [0,1]; the docstring's 4.5e-4 is not reached by this proof"
  },
  {
   "property": "C56",
   "status": "proved",
   "theorems": [
    "Itm.Props.C56_avar_formula",
    "Itm.Props.C56_avar_formula_bad_climate",
    "Itm.Props.C56_avar_answers",
    "Itm.Props.C56_deviate_warning"
   ],
   "note": "Closed form over the reals for every history obeying the protocol; the warning for every arithmetic."
  },
  {
   "property": "C57",
   "status": "proved",
   "theorems": [
    "Itm.Props.C57_line_of_sight",
    "Itm.Props.C57_beyond",
    "Itm.Props.C57_sweep"
   ],
   "note": "Distances beyond the horizon under the condition that the two scatter distances are usable (ScatterOk); C32 shows what happens otherwise. Later line-of-sight calls of a sweep are excluded, see C20."
  },
  {
   "property": "C58",
   "status": "partial",
   "theorems": [
    "Itm.Props.C58_obstructed",
    "Itm.Props.C58_clear_partial",
    "Itm.Props.C58_clear_shifted",
    "Itm.Props.C58_determined"
   ],
   "note": "Obstructed paths: complete. Clear paths: the code takes the last but one profile point for the receiver's ground (C40_refuted), so the published parameters are reached only if the last two heights agree (C58_clear_partial); C58_clear_shifted says exactly what is computed."
  },
  {
   "property": "C59",
   "status": "partial",
   "theorems": [
    "Itm.Props.C59_area_partial",
    "Itm.Props.C59_p2p_exact",
    "Itm.Props.C59_p2p_shifted",
    "Itm.Props.C59_p2p_partial",
    "Itm.Props.C59_pimter_exact",
    "Itm.Props.C59_pimter_shifted"
   ],
   "note": "Closed form of every row over the reals (C59_p2p_exact, C59_pimter_exact: all links; the published value for links that are line of sight or usable for scatter, the others see C71). Area: all rows beyond the horizon and the rows of the first distance (later line-of-sight rows repeat the previous answer, C20), with the impedance of lossless ground (C47_refuted). Point-to-point and campaign: all rows, with the receiver's ground of clear paths at the last but one point (C40_refuted); the campaign for undivided percentages (C06_refuted)."
  },
  {
   "property": "C60",
   "status": "partial",
   "theorems": [
    "Itm.Props.C60_same_lists",
    "Itm.Props.C60_labels",
    "Itm.Props.C60_answers",
    "Itm.Props.C60_header",
    "Itm.Props.C60_refuted"
   ],
   "note": "Holds if both assignments of the lists agree and there are three or more confidence levels (C60_same_lists); in general the labels are those of lines 212/215 and the losses those of lines 77/80 (C60_labels, C60_refuted)."
  },
  {
   "property": "C61",
   "status": "partial",
   "theorems": [
    "Itm.Props.C61_samples",
    "Itm.Props.C61_refuted"
   ],
   "note": "Sampling and failure characterised in full; the placement by the runner is refuted with the exact displacement."
  },
  {
   "property": "C62",
   "status": "proved",
   "theorems": [
    "Itm.Props.C62_round_trip",
    "Itm.Props.C62_empty",
    "Itm.Props.C62_p2p",
    "Itm.Props.C62_area"
   ],
   "note": "For every content of the cells; the csv module's dialect is modelled as documented."
  },
  {
   "property": "C63",
   "status": "proved",
   "theorems": [
    "Itm.Props.C63_datum"
   ],
   "note": "All profiles with positive antenna heights and path length; over the reals (rounding of z + c is outside)."
  },
  {
   "property": "C64",
   "status": "partial",
   "theorems": [
    "Itm.Props.C64_reciprocal_partial",
    "Itm.Props.C64_clear_refuted",
    "Itm.Props.C64_ties_refuted"
   ],
   "note": "Proved for obstructed paths without ties and for clear paths with equal end heights. False in general, proved: C64_clear_refuted (qlrpfl.py line 43 reads the last but one height), C64_ties_refuted (first obstacle in scanning order wins for both terminals)."
  },
  {
   "property": "C65",
   "status": "proved",
   "theorems": [
    "Itm.Props.C65_path",
    "Itm.Props.C65_sight",
    "Itm.Props.C65_beyond",
    "Itm.Props.C65_p2p",
    "Itm.Props.C65_outside",
    "Itm.Props.C65_coincidence"
   ],
   "note": "first calls of lrprop and runs of itmlogic_p2p, also in terms of the profile (C65_path); the coincidences are characterised exactly, C65_coincidence shows one within the limits; C65_outside shows that the limits are needed; links barred from scatter included"
  },
  {
   "property": "C66",
   "status": "proved",
   "theorems": [
    "Itm.Props.C66_area",
    "Itm.Props.C66_smooth"
   ],
   "note": "the area runner answers or divides by zero, nothing else, in the stated ranges; it answers without the coincidences, on links barred from scatter too; on smooth earth it always answers"
  },
  {
   "property": "C67",
   "status": "proved",
   "theorems": [
    "Itm.Props.C67_lrprop",
    "Itm.Props.C67_p2p",
    "Itm.Props.C67_area",
    "Itm.Props.C67_pimter"
   ],
   "note": "every answered first call of lrprop is on a physical link; consequences for the three runners"
  },
  {
   "property": "C68",
   "status": "proved",
   "theorems": [
    "Itm.Props.C68_avar",
    "Itm.Props.C68_aref",
    "Itm.Props.C68_area"
   ],
   "note": "quantile jointly continuous in all parameters; slope in aref between 0.1 and 1; one continuous loss function for all area runs (on the rows C20 leaves correct)"
  },
  {
   "property": "C69",
   "status": "proved",
   "theorems": [
    "Itm.Props.C69_campaign"
   ],
   "note": "preparation of all heights always succeeds; rows exist iff no height has a coincidence (within the limits)"
  },
  {
   "property": "C70",
   "status": "partial",
   "theorems": [
    "Itm.Props.C70_rows",
    "Itm.Props.C70_file_partial",
    "Itm.Props.C70_file_refuted",
    "Itm.Props.C70_ends"
   ],
   "note": "the losses at 20 km are those for the attenuation at 10 km (C70_file_refuted); on links barred from scatter the closed form of every row is that of Spec/Unbarred, not the published one (C71)"
  },
  {
   "property": "C71",
   "status": "partial",
   "theorems": [
    "Itm.Props.C71_call_partial",
    "Itm.Props.C71_difference",
    "Itm.Props.C71_flat_refuted"
   ],
   "note": "the closed form of the code on every link (C71_call_partial) and its difference from the published one on barred links (C71_difference) are proved; the published claim is refuted for the shipped area program over flat terrain (C71_flat_refuted)"
  },
  {
   "property": "C72",
   "status": "partial",
   "theorems": [
    "Itm.Props.C72_empty",
    "Itm.Props.C72_table",
    "Itm.Props.C72_points",
    "Itm.Props.C72_file_partial",
    "Itm.Props.C72_distance_refuted",
    "Itm.Props.C72_tiles"
   ],
   "note": "The points file, the common table and its 15 lines are proved for all elevation models and sites. That lines refer to the measured terrain and distance is false: C72_table (one table for all sites), C72_distance_refuted."
  },
  {
   "property": "C73",
   "status": "partial",
   "theorems": [
    "Itm.Props.C73_answered",
    "Itm.Props.C73_geometry",
    "Itm.Props.C73_report_refuted",
    "Itm.Props.C73_reversed"
   ],
   "note": "Answered with the published losses for all levels, the same from the other end; the path class is refuted (C73_report_refuted)."
  },
  {
   "property": "C74",
   "status": "proved",
   "theorems": [
    "Itm.Props.C74_qerf",
    "Itm.Props.C74_qerfi",
    "Itm.Props.C74_qerfi_accuracy",
    "Itm.Props.C74_order",
    "Itm.Props.C74_percent",
    "Itm.Props.C74_median",
    "Itm.Props.C74_percent_order",
    "Itm.Props.C74_round_trip"
   ],
   "note": "for every arithmetic with the laws of Spec.Rounding (proved for IEEE doubles with any accurate library in C101, for chopped 53-digit binary numbers and for the reals)"
  },
  {
   "property": "C75",
   "status": "proved",
   "theorems": [
    "Itm.Props.C75_quantile",
    "Itm.Props.C75_confidence"
   ],
   "note": "for every arithmetic with the laws of Spec.Rounding; coefficients of the stated sizes"
  },
  {
   "property": "C76",
   "status": "proved",
   "theorems": [
    "Itm.Props.C76_avar",
    "Itm.Props.C76_confidence",
    "Itm.Props.C76_time"
   ],
   "note": "Bounds for every arithmetic with the laws of Spec/Rounding; the sizes of the dictionary values are hypotheses (StatSized, StatRange)."
  },
  {
   "property": "C77",
   "status": "proved",
   "theorems": [
    "Itm.Props.C77_rows",
    "Itm.Props.C77_confidence",
    "Itm.Props.C77_reliability"
   ],
   "note": "From the prepared link on; rounding inside qlrpfl and lrprop is not followed, the prepared values are taken as given."
  },
  {
   "property": "C78",
   "status": "proved",
   "theorems": [
    "Itm.Props.C78_relief",
    "Itm.Props.C78_path",
    "Itm.Props.C78_run"
   ],
   "note": "Over the reals; window inside the profile."
  },
  {
   "property": "C79",
   "status": "proved",
   "theorems": [
    "Itm.Props.C79_first",
    "Itm.Props.C79_second",
    "Itm.Props.C79_both",
    "Itm.Props.C79_terrain"
   ],
   "note": "Over the reals."
  },
  {
   "property": "C80",
   "status": "proved",
   "theorems": [
    "Itm.Props.C80_quantile",
    "Itm.Props.C80_percent",
    "Itm.Props.C80_p2p",
    "Itm.Props.C80_area"
   ],
   "note": "Over the reals."
  },
  {
   "property": "C81",
   "status": "proved",
   "theorems": [
    "Itm.Props.C81_friis",
    "Itm.Props.C81_scaling",
    "Itm.Props.C81_earth_area",
    "Itm.Props.C81_earth_p2p",
    "Itm.Props.C81_p2p",
    "Itm.Props.C81_positive",
    "Itm.Props.C81_area"
   ],
   "note": "Over the reals."
  },
  {
   "property": "C82",
   "status": "proved",
   "theorems": [
    "Itm.Props.C82_p2p",
    "Itm.Props.C82_area"
   ],
   "note": "Over any arithmetic with the laws of Spec/Rounding. The sizes of the dictionary behind a row are a hypothesis."
  },
  {
   "property": "C83",
   "status": "proved",
   "theorems": [
    "Itm.Props.C83_horizons",
    "Itm.Props.C83_exact"
   ],
   "note": "size limits: at most 1000 intervals of at least 1 m, 4000 km, heights to 10 km, slopes to 45 degrees"
  },
  {
   "property": "C84",
   "status": "proved",
   "theorems": [
    "Itm.Props.C84_quantile",
    "Itm.Props.C84_p2p",
    "Itm.Props.C84_area"
   ],
   "note": "modes 1 to 3; in single message mode the time variability itself is not symmetric"
  },
  {
   "property": "C85",
   "status": "proved",
   "theorems": [
    "Itm.Props.C85_errors",
    "Itm.Props.C85_sampling"
   ],
   "note": ""
  },
  {
   "property": "C86",
   "status": "proved",
   "theorems": [
    "Itm.Props.C86_fit",
    "Itm.Props.C86_irregularity",
    "Itm.Props.C86_clear"
   ],
   "note": "over the reals; the dictionary version only for paths both surveys find clear (otherwise the window itself may jump)"
  },
  {
   "property": "C87",
   "status": "proved",
   "theorems": [
    "Itm.Props.C87_curvature",
    "Itm.Props.C87_refractivity"
   ],
   "note": "over the reals"
  },
  {
   "property": "C88",
   "status": "proved",
   "theorems": [
    "Itm.Props.C88_aref",
    "Itm.Props.C88_median",
    "Itm.Props.C88_eliminate",
    "Itm.Props.C88_kinds"
   ],
   "note": "For all dictionaries reachable under the lvar protocol, over the reals."
  },
  {
   "property": "C89",
   "status": "proved",
   "theorems": [
    "Itm.Props.C89_fit",
    "Itm.Props.C89_fit_exact",
    "Itm.Props.C89_irregularity",
    "Itm.Props.C89_irregularity_exact"
   ],
   "note": "Backward statements (C89_fit, C89_irregularity) hold for every window; the comparison with exact arithmetic (C89_fit_exact, C89_irregularity_exact) excludes windows within 1e-11 intervals of the points where floor/ceil change. Floats are represented by any arithmetic satisfying Spec.Rounding."
  },
  {
   "property": "C90",
   "status": "proved",
   "theorems": [
    "Itm.Props.C90_parameters",
    "Itm.Props.C90_reference",
    "Itm.Props.C90_quantile",
    "Itm.Props.C90_falling"
   ],
   "note": "Straight non-falling terrain within the smooth-earth horizons: same parameters, reference attenuation and quantiles in both modes, exceptions included. C90_falling states how they differ on falling terrain (the defect of C40)."
  },
  {
   "property": "C91",
   "status": "proved",
   "theorems": [
    "Itm.Props.C91_curves",
    "Itm.Props.C91_repeated",
    "Itm.Props.C91_legend",
    "Itm.Props.C91_area",
    "Itm.Props.C91_area_shipped",
    "Itm.Props.C91_p2p",
    "Itm.Props.C91_p2p_shipped",
    "Itm.Props.C91_refuted"
   ],
   "note": "Exact condition for truthful figures (iff), applied to both drivers; C91_refuted shows the mislabelling for other levels. pandas/matplotlib are modelled by their documented behaviour on such tables."
  },
  {
   "property": "C92",
   "status": "proved",
   "theorems": [
    "Itm.Props.C92_pimter",
    "Itm.Props.C92_published"
   ],
   "note": "Both theorems ask that the exact run returns; C69_campaign says when it does. Example: all 121 heights over a tableland of 1000 m."
  },
  {
   "property": "C93",
   "status": "proved",
   "theorems": [
    "Itm.Props.C93_usable",
    "Itm.Props.C93_geometry"
   ],
   "note": "Usable for every path of ordinary size; right (up to stated errors) where the exact horizons stand out by 4e-10 and 4e-8 radians. The receiver ground of clear paths is the last but one sample, as the code has it (see C40)."
  },
  {
   "property": "C94",
   "status": "proved",
   "theorems": [
    "Itm.Props.C94_height",
    "Itm.Props.C94_siting",
    "Itm.Props.C94_rough",
    "Itm.Props.C94_limit"
   ],
   "note": "All claims proved; C94_limit shows that the bound of 0.5 m cannot be dropped."
  },
  {
   "property": "C95",
   "status": "proved",
   "theorems": [
    "Itm.Props.C95_attenuation"
   ],
   "note": "First call of lrprop (fresh dictionary, mdp ≠ 0) in general position (Spec/Clear); links exactly at a threshold, and dh = 0, are outside the hypotheses."
  },
  {
   "property": "C96",
   "status": "proved",
   "theorems": [
    "Itm.Props.C96_quantile",
    "Itm.Props.C96_loss"
   ],
   "note": "quantile: no threshold conditions; loss: general position of the link (Spec/Clear) as in C95; situation variability kept (mdvar < 20)"
  },
  {
   "property": "C97",
   "status": "proved",
   "theorems": [
    "Itm.Props.C97_beyond",
    "Itm.Props.C97_area",
    "Itm.Props.C97_published"
   ],
   "note": "General position is spelt out in Spec/Clear and Spec/AreaClear: link off every threshold at each distance, levels whose deviate is not halfway between four-decimal numbers, grid counts not on an integer. The example runs a concrete prediction (50 to 500 km, shipped levels) in n-digit fixed-point numbers."
  },
  {
   "property": "C98",
   "status": "proved",
   "theorems": [
    "Itm.Props.C98_path",
    "Itm.Props.C98_published"
   ],
   "note": "parameters of a profile approach the exact ones, and the published ones where the exact program has them, in every family of arithmetics"
  },
  {
   "property": "C99",
   "status": "proved",
   "theorems": [
    "Itm.Props.C99_p2p",
    "Itm.Props.C99_published"
   ],
   "note": "whole p2p program, rows and class of path; the remark on scatter is not claimed"
  },
  {
   "property": "C100",
   "status": "proved",
   "theorems": [
    "Itm.Props.C100_p2p",
    "Itm.Props.C100_area",
    "Itm.Props.C100_pimter",
    "Itm.Props.C100_quantile"
   ],
   "note": "General position is that of C99, C97 and C92; the constant is not computed. C100_quantile needs no general position."
  },
  {
   "property": "C101",
   "status": "proved",
   "theorems": [
    "Itm.Props.C101_nearest",
    "Itm.Props.C101_numbers",
    "Itm.Props.C101_laws",
    "Itm.Props.C101_deviate",
    "Itm.Props.C101_percent",
    "Itm.Props.C101_path"
   ],
   "note": "doubles with every accurate library satisfy the laws of Spec.Rounding, so C74-C77, C82, C83, C89 and C93 apply to them; two of these are restated for doubles"
  },
  {
   "property": "C102",
   "status": "proved",
   "theorems": [
    "Itm.Props.C102_knife",
    "Itm.Props.C102_knife_doubles",
    "Itm.Props.C102_height",
    "Itm.Props.C102_weight",
    "Itm.Props.C102_gain",
    "Itm.Props.C102_scatter"
   ],
   "note": "Absolute bounds for each function against exact arithmetic on the same values. Inputs of the diffraction weight are the stored constants wd1, xd1, dh, wn; how these were rounded earlier is not part of the statement."
  },
  {
   "property": "C103",
   "status": "proved",
   "theorems": [
    "Itm.Props.C103_diffraction",
    "Itm.Props.C103_distances"
   ],
   "note": "for all rounding arithmetics; doubles by C101; the numbers stored by the initialising call are inputs here"
  },
  {
   "property": "C104",
   "status": "partial",
   "theorems": [
    "Itm.Props.C104_window",
    "Itm.Props.C104_partial",
    "Itm.Props.C104_few",
    "Itm.Props.C104_many",
    "Itm.Props.C104_gaps",
    "Itm.Props.C104_refuted",
    "Itm.Props.C104_gaps_refuted",
    "Itm.Props.C104_program_refuted"
   ],
   "note": "false for the code: np.percentile ignores the mask; proved where the rectangle is all cell, bounded while at most a tenth is foreign, refuted for every irregularity otherwise"
  },
  {
   "property": "C105",
   "status": "proved",
   "theorems": [
    "Itm.Props.C105_scatter",
    "Itm.Props.C105_gain"
   ],
   "note": "ascat in any rounding arithmetic, state read from the earlier call of the preparation; jumps of the code (curve at 10 km and 70 km, gain limit at 15 dB) are excluded with a margin and named in Spec.ScatData.Clear"
  },
  {
   "property": "C106",
   "status": "proved",
   "theorems": [
    "Itm.Props.C106_los",
    "Itm.Props.C106_ray"
   ],
   "note": "Accurate sine and cosine near the origin are an explicit hypothesis beside the rounding laws; shown for doubles with every accurate library. The modulus is computed without hypot."
  },
  {
   "property": "C107",
   "status": "proved",
   "theorems": [
    "Itm.Props.C107_environment"
   ],
   "note": "Ranges as stated; exact inputs are the values of the rounded inputs. The modulus inside the root is the root of the sum of squares, where CPython calls hypot."
  },
  {
   "property": "C108",
   "status": "proved",
   "theorems": [
    "Itm.Props.C108_reported",
    "Itm.Props.C108_ordinary"
   ],
   "note": "The ranges are those of C107; the comparison is decided with the four limits at least 1e-9 away. C108_ordinary needs no such distance."
  }
 ]
}