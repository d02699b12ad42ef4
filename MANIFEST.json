{
 "claims": [
  {
   "property": "C01",
   "status": "proved",
   "theorems": [
    "Moo.C01_isNondominated_keep_exact"
   ],
   "note": "All nobj, n, directions, both code paths."
  },
  {
   "property": "C02",
   "status": "proved",
   "theorems": [
    "Moo.C02_isNondominated_delete_exact"
   ],
   "note": "Exactly one copy; the last one when nobj is not 2."
  },
  {
   "property": "C03",
   "status": "proved",
   "theorems": [
    "Moo.C03_fastpath_keep_eq",
    "Moo.C03_fastpath_delete_eq"
   ],
   "note": ""
  },
  {
   "property": "C04",
   "status": "proved",
   "theorems": [
    "Moo.C04_filter_sound_complete",
    "Moo.C04_filter_idempotent"
   ],
   "note": ""
  },
  {
   "property": "C05",
   "status": "partial",
   "theorems": [
    "Moo.C05_count_partial",
    "Moo.C05_get_nondominated_set_partial",
    "Moo.C05_count_2d_returns_dominated",
    "Moo.C05_false_2d",
    "Moo.C05_get_nondominated_set_overflow_2d"
   ],
   "note": "False of the code with 2 objectives and at least 2 points (it returns the number of dominated rows, and get_nondominated_set then overflows its buffer); proved in all other cases."
  },
  {
   "property": "C06",
   "status": "partial",
   "theorems": [
    "Moo.C06_find_dominated_partial",
    "Moo.C06_false_single"
   ],
   "note": "False of the code for a single point (returns 1 instead of -1); proved for two or more points."
  },
  {
   "property": "C07",
   "status": "proved",
   "theorems": [
    "Moo.C07_maximise_is_negation",
    "Moo.C07_maximise_is_negation_delete"
   ],
   "note": "With two objectives and keep_weakly=false the kept vectors agree; which copy is kept depends on qsort."
  },
  {
   "property": "C08",
   "status": "proved",
   "theorems": [
    "Moo.C08_general_peels",
    "Moo.C08_pareto_rank_peels",
    "Moo.C08_front_unique",
    "Moo.C08_pareto_rank_py"
   ],
   "note": "Includes termination of the do-while loop. With two objectives the set must be non-empty (C09_empty_2d: out-of-bounds write on an empty set)."
  },
  {
   "property": "C09",
   "status": "proved",
   "theorems": [
    "Moo.C09_rank2d_eq_general",
    "Moo.C09_empty_2d"
   ],
   "note": "The property is stated for at least one point; C09_empty_2d shows what happens otherwise."
  },
  {
   "property": "C10",
   "status": "proved",
   "theorems": [
    "Moo.C10_rank_respects_dominance",
    "Moo.C10_rank_one_iff_filter"
   ],
   "note": ""
  },
  {
   "property": "C11",
   "status": "proved",
   "theorems": [
    "Moo.C11_hv2d_is_area"
   ],
   "note": "Every output order allowed by qsort; exact arithmetic."
  },
  {
   "property": "C12",
   "status": "proved",
   "theorems": [
    "Moo.C12_hv3d_is_volume"
   ],
   "note": "Every tie order allowed by qsort and every content of uninitialised memory; the AVL tree is its in-order list."
  },
  {
   "property": "C13",
   "status": "partial",
   "theorems": [
    "Moo.C13_hv_is_volume_partial",
    "Moo.C13_false_for_unstable_sort"
   ],
   "note": "Proved for all d >= 2 when ties are ordered alike by successive sorts (see C47); the unrestricted claim is false for d = 4 with an unstable qsort, proved by C13_false_for_unstable_sort (88 instead of 115)."
  },
  {
   "property": "C14",
   "status": "partial",
   "theorems": [
    "Moo.C14_hv_equal_of_equivalent_sets_partial",
    "Moo.C14_hv_same_rows_partial",
    "Moo.C14_hv_extra_rows_partial"
   ],
   "note": "Complete for d = 2 and d = 3; for d >= 4 under the tie condition of C13, without which it is false."
  },
  {
   "property": "C15",
   "status": "partial",
   "theorems": [
    "Moo.C15_hv_monotone_partial",
    "Moo.C15_hv_strictly_monotone_partial",
    "Moo.C15_hv_zero_iff_partial"
   ],
   "note": "Complete for d = 2 and d = 3; for d >= 4 under the tie condition of C13."
  },
  {
   "property": "C16",
   "status": "partial",
   "theorems": [
    "Moo.C16_contribution_is_exclusive_volume_partial",
    "Moo.C16_contribution_zero_of_dominated_partial"
   ],
   "note": "Complete for d = 2 and d = 3; for d >= 4 under the tie condition of C13."
  },
  {
   "property": "C17",
   "status": "proved",
   "theorems": [
    "Moo.C17_epsilon_additive_least",
    "Moo.C17_epsilon_additive_empty",
    "Moo.C17_epsilon_additive_nonpos_iff"
   ],
   "note": "exact arithmetic in an ordered field"
  },
  {
   "property": "C18",
   "status": "proved",
   "theorems": [
    "Moo.C18_epsilon_mult_least",
    "Moo.C18_epsilon_mult_error_iff"
   ],
   "note": "exact arithmetic in an ordered field"
  },
  {
   "property": "C19",
   "status": "proved",
   "theorems": [
    "Moo.C19_epsilon_additive_ind"
   ],
   "note": "exact arithmetic in an ordered field"
  },
  {
   "property": "C20",
   "status": "proved",
   "theorems": [
    "Moo.C20_igd_mean_nearest",
    "Moo.C20_gd_mean_nearest",
    "Moo.C20_avg_hausdorff",
    "Moo.C20_avg_hausdorff_symm",
    "Moo.C20_igd_nonneg_zero_iff",
    "Moo.C20_igd_empty"
   ],
   "note": "exact real arithmetic"
  },
  {
   "property": "C21",
   "status": "proved",
   "theorems": [
    "Moo.C21_igd_plus_mean_nearest",
    "Moo.C21_igd_plus_compliant",
    "Moo.C21_igd_plus_zero_iff"
   ],
   "note": "exact real arithmetic"
  },
  {
   "property": "C22",
   "status": "proved",
   "theorems": [
    "Moo.C22_normalise_bounds",
    "Moo.C22_normalise_in_range",
    "Moo.C22_normalise_dominance",
    "Moo.C22_normalise_frame"
   ],
   "note": "exact arithmetic in an ordered field"
  },
  {
   "property": "C23",
   "status": "proved",
   "theorems": [
    "Moo.C23_eaf2d_minimal_points",
    "Moo.C23_empty_run_misassigned",
    "Moo.C23_false_empty_run"
   ],
   "note": "For runs that all have a point (the first may be empty). C23_false_empty_run shows the code is wrong when a later run is empty."
  },
  {
   "property": "C24",
   "status": "proved",
   "theorems": [
    "Moo.C24_eaf2d_attained",
    "Moo.C24_eaf2d_bits"
   ],
   "note": "Indicator array and packed bits in the allocated memory"
  },
  {
   "property": "C25",
   "status": "proved",
   "theorems": [
    "Moo.C25_eaf2d_sorted_nested",
    "Moo.C25_eaf_matrix"
   ],
   "note": "Also the matrix returned by eaf_compute_matrix for two objectives"
  },
  {
   "property": "C26",
   "status": "proved",
   "theorems": [
    "Moo.C26_percentile2level_least",
    "Moo.C26_percentile2level_mono",
    "Moo.C26_percentile2level_level2percentile",
    "Moo.C26_percentile2level_assert_iff",
    "Moo.C26_default_levels"
   ],
   "note": "exact arithmetic in an ordered field with floor; the tolerance is any 0 <= tol < 1"
  },
  {
   "property": "C27",
   "status": "partial",
   "theorems": [
    "Moo.C27_eafdiff_value_equal_sides_partial",
    "Moo.C27_eafdiff_range",
    "Moo.C27_eafdiff_antisymm",
    "Moo.C27_false_unequal_sides"
   ],
   "note": "proved when both sides have the same number of sets; false otherwise (C27_false_unequal_sides): the code always splits the runs in halves"
  },
  {
   "property": "C28",
   "status": "proved",
   "theorems": [
    "Moo.C28_bit_array_history",
    "Moo.C28_bit_array_get_set",
    "Moo.C28_bit_nwords",
    "Moo.C28_store_attained"
   ],
   "note": "64-bit words as BitVec 64, all accesses bounds-checked"
  },
  {
   "property": "C29",
   "status": "proved",
   "theorems": [
    "Moo.C29_cvector_refines_list",
    "Moo.C29_at_end_not_caught"
   ],
   "note": "histories legal on lists; C29_at_end_not_caught: the assertion of at/set lets position = size through"
  },
  {
   "property": "C30",
   "status": "proved",
   "theorems": [
    "Moo.C30_transpose",
    "Moo.C30_transpose_transpose",
    "Moo.C30_eaf2matrix",
    "Moo.C30_eaf2matrix_R",
    "Moo.C30_eaf2matrix_same"
   ],
   "note": ""
  },
  {
   "property": "C31",
   "status": "proved",
   "theorems": [
    "Moo.C31_layout",
    "Moo.C31_round_trip",
    "Moo.C31_filtered",
    "Moo.C31_comment_splits",
    "Moo.C31_round_trip_int",
    "Moo.scanInt_ok",
    "Moo.printInt_ok"
   ],
   "note": "Round trip for every list of non-empty sets, for any number conversion that meets FmtOk/ScanOk (values come back after the rounding of the printed format); proved without assumptions for integers."
  },
  {
   "property": "C32",
   "status": "proved",
   "theorems": [
    "Moo.C32_read_total",
    "Moo.C32_accept",
    "Moo.C32_empty",
    "Moo.C32_conversion",
    "Moo.C32_columns",
    "Moo.C32_append",
    "Moo.C32_cases"
   ],
   "note": "Every text: totality and memory safety; line-level results for texts without vertical tabs and form feeds."
  },
  {
   "property": "C33",
   "status": "proved",
   "theorems": [
    "Moo.C33_read_datasets",
    "Moo.C33_R_read_datasets",
    "Moo.C33_R_empty_out_of_bounds"
   ],
   "note": "Also proves that the R entry point reads out of bounds on a file with only comments."
  },
  {
   "property": "C34",
   "status": "partial",
   "theorems": [
    "Moo.C34_rect_weighted_hv2d_partial",
    "Moo.C34_false_early_stop",
    "Moo.C34_false_dominated_point",
    "Moo.C34_repeated_point_abort"
   ],
   "note": "False of the code as stated: the sweep stops as soon as a point is exactly as high as the lowest upper side of a rectangle. Proved for all inputs where no point but the lowest has that height; counterexamples for the rest, for dominated points and repeated points. Exact arithmetic."
  },
  {
   "property": "C35",
   "status": "proved",
   "theorems": [
    "Moo.C35_estimate",
    "Moo.C35_value",
    "Moo.C35_range",
    "Moo.C35_monotone",
    "Moo.C35_uniform",
    "Moo.C35_exponential",
    "Moo.C35_exponential_abort",
    "Moo.C35_point"
   ],
   "note": "For all samples, points, boxes with ideal < ref, states of the generator; exact arithmetic; log, sqrt and the generator are arbitrary functions. The exponential distribution aborts when the generator returns 0 (C35_exponential_abort)."
  },
  {
   "property": "C36",
   "status": "proved",
   "theorems": [
    "Moo.C36_insert_after",
    "Moo.C36_insert_before",
    "Moo.C36_insert_after_null",
    "Moo.C36_insert_before_null",
    "Moo.C36_delete",
    "Moo.C36_step",
    "Moo.C36_history"
   ],
   "note": "Pointer-level heap model; up to 2^125 nodes (8-bit depth field)."
  },
  {
   "property": "C37",
   "status": "proved",
   "theorems": [
    "Moo.C37_search_closest",
    "Moo.C37_search",
    "Moo.C37_insert_sorted",
    "Moo.C37_delete_key"
   ],
   "note": "Search, keyed insertion and keyed deletion on trees sorted by a consistent comparison."
  },
  {
   "property": "C38",
   "status": "proved",
   "theorems": [
    "Moo.C38_data_bounds",
    "Moo.C38_data_bounds_hv",
    "Moo.C38_data_bounds_accumulate",
    "Moo.C38_force_bounds",
    "Moo.C38_force_bounds_rows"
   ],
   "note": "Both data_bounds and force_bounds, all sizes."
  },
  {
   "property": "C39",
   "status": "proved",
   "theorems": [
    "Moo.C39_pareto_better",
    "Moo.C39_equal_fronts",
    "Moo.C39_strict_order",
    "Moo.C39_cmpparetos",
    "Moo.C39_rank",
    "Moo.C39_check_exact",
    "Moo.C39_check_rejects_single",
    "Moo.C39_no_check_abort"
   ],
   "note": "For non-empty fronts the comparison never aborts and is the strict order; counts and ranks follow. Defects proved: the input check rejects every file with a one-point set; --no-check can abort."
  },
  {
   "property": "C40",
   "status": "proved",
   "theorems": [
    "Moo.C40_within_sets",
    "Moo.C40_is_nondominated_keep",
    "Moo.C40_is_nondominated_delete",
    "Moo.C40_filter",
    "Moo.C40_apply_per_row",
    "Moo.C40_apply_per_set"
   ],
   "note": "is_nondominated_within_sets, filter_dominated_within_sets and apply_within_sets for any labels; NumPy primitives by their documented results."
  },
  {
   "property": "C41",
   "status": "partial",
   "theorems": [
    "Moo.C41_vorobDev_partial"
   ],
   "note": "Complete for 2 and 3 objectives; for 4 and more under the condition of C13 that equal coordinates are ordered alike by the sorts (false otherwise, see C13). VE given; exact arithmetic."
  },
  {
   "property": "C42",
   "status": "proved",
   "theorems": [
    "Moo.C42_eaf3d_minimal_points",
    "Moo.C42_eaf3d_attained",
    "Moo.C42_eaf3d_bits",
    "Moo.C42_eaf_matrix"
   ],
   "note": "eaf3d for any output of qsort, any number of runs and points, ties included; the first two coordinates must be finite (strictly between objective_MIN and objective_MAX). C42_eaf3d_bits adds the memory of eaf_t (at most 32767 input points, so that a level has at most 2^30 - 1 points), C42_eaf_matrix the matrix of eaf_compute_matrix."
  },
  {
   "property": "C43",
   "status": "proved",
   "theorems": [
    "Moo.C43_rectangles",
    "Moo.C43_odd_runs_abort"
   ],
   "note": "For two sides with the same number of runs, all runs non-empty, every point below infinity; colours and values of eafdiff_compute_rectangles. An odd number of runs fails the assertion."
  },
  {
   "property": "C44",
   "status": "proved",
   "theorems": [
    "Moo.C44_null",
    "Moo.C44_exit",
    "Moo.C44_directions",
    "Moo.C44_short_count",
    "Moo.C44_bitvector"
   ],
   "note": "The number of objectives given back is the length of the string (C44_short_count)."
  },
  {
   "property": "C45",
   "status": "proved",
   "theorems": [
    "Moo.C45_calculate_uev",
    "Moo.C45_exists"
   ],
   "note": "Exact characterisation of the flags; number of flags."
  },
  {
   "property": "C46",
   "status": "partial",
   "theorems": [
    "Moo.C46_ignored_objectives_partial",
    "Moo.C46_false_2d",
    "Moo.C46_assert_2d"
   ],
   "note": "False of the code with two objectives; proved otherwise."
  },
  {
   "property": "C47",
   "status": "proved",
   "theorems": [
    "Moo.C47_hv_is_volume_stable_sort",
    "Moo.C47_hv_is_volume_no_ties",
    "Moo.exists_stable_env"
   ],
   "note": "All d >= 2; exists_stable_env shows the hypotheses can be met for every input."
  },
  {
   "property": "C48",
   "status": "partial",
   "theorems": [
    "Moo.C48_bracket_partial",
    "Moo.C48_false_early_stop",
    "Moo.C48_no_termination_exact"
   ],
   "note": "False of the code as stated: the bisection stops when two successive percentiles have equal hypervolume. Proved: the returned percentile is an end of a bracketing interval; a counterexample to optimality; non-termination in exact arithmetic."
  },
  {
   "property": "C49",
   "status": "partial",
   "theorems": [
    "Moo.C49_uniform_maximise_partial",
    "Moo.C49_false_point_maximise"
   ],
   "note": "Proved for the uniform distribution. False for dist=point: mu is not negated with the maximised objectives."
  },
  {
   "property": "C50",
   "status": "proved",
   "theorems": [
    "Moo.C50_epsilon_additive_float",
    "Moo.C50_epsilon_additive_float_nonpos_iff",
    "Moo.C50_epsilon_additive_ind_float",
    "Moo.C50_epsilon_mult_float",
    "Moo.C50_epsilon_mult_float_error_iff",
    "Moo.C50_epsilon_mult_float_le_one_iff"
   ],
   "note": "Round to nearest with any tie rule, gradual underflow, no overflow."
  },
  {
   "property": "C51",
   "status": "proved",
   "theorems": [
    "Moo.C51_percentile_roundtrip_float",
    "Moo.C51_all_percentiles_float",
    "Moo.C51_percentile2level_float",
    "Moo.C51_percentile2level_float_lower",
    "Moo.C51_percentile2level_float_mono"
   ],
   "note": "tolerance = sqrt(DBL_EPSILON) = 2^-26."
  },
  {
   "property": "C52",
   "status": "proved",
   "theorems": [
    "Moo.C52_hv2d_float_error",
    "Moo.C52_hv2d_float_nonneg",
    "Moo.C52_hv2d_float_order",
    "Moo.C52_hv2d_float_dominated"
   ],
   "note": "The error bound assumes that different values of an objective differ by at least 2^-511 (no underflow)."
  },
  {
   "property": "C53",
   "status": "proved",
   "theorems": [
    "Moo.C53_igd_float_error",
    "Moo.C53_igd_plus_float_error",
    "Moo.C53_igd_plus_float_compliant"
   ],
   "note": "p = 1; sqrtl is a parameter with two roundings (error bound) or monotone (compliance)."
  },
  {
   "property": "C54",
   "status": "proved",
   "theorems": [
    "Moo.C54_normalise_float_weak_dominance",
    "Moo.C54_normalise_float_best",
    "Moo.C54_normalise_float_unit_range",
    "Moo.C54_normalise_float_exceeds_range",
    "Moo.C54_normalise_float_dominance_lost"
   ],
   "note": "The last two theorems show why the claim is restricted: other ranges may be exceeded by one unit in the last place, and strict dominance may become equality."
  },
  {
   "property": "C55",
   "status": "proved",
   "theorems": [
    "Moo.C55_hv_approx_unbiased",
    "Moo.C55_hv_approx_consistent"
   ],
   "note": "Python hv_approx over the reals; the normal numbers are random variables with the standard normal law (that NumPy delivers them is assumed)."
  },
  {
   "property": "C56",
   "status": "proved",
   "theorems": [
    "Moo.C56_hv_approx_monotone",
    "Moo.C56_hv_approx_equal_of_equivalent_sets",
    "Moo.C56_hv_approx_isSome_iff",
    "Moo.C56_hv_approx_raises"
   ],
   "note": "For every sequence of random numbers. C56_hv_approx_raises: exception when no point is strictly better than ref."
  },
  {
   "property": "C57",
   "status": "proved",
   "theorems": [
    "Moo.C57_whv_hype_uniform_unbiased",
    "Moo.C57_between_eq_hypervolume",
    "Moo.C57_whv_hype_uniform_consistent",
    "Moo.C57_whv_hype_exponential_mean"
   ],
   "note": "Over the reals, with ideal uniform random numbers. In the exponential case samples beyond ref count as dominated."
  },
  {
   "property": "C58",
   "status": "proved",
   "theorems": [
    "Moo.C58_words",
    "Moo.C58_periodic",
    "Moo.C58_different_seeds",
    "Moo.C58_never_stuck",
    "Moo.C58_random",
    "Moo.C58_whv_hype_uniform"
   ],
   "note": "mt_exists: the sequence of the specification exists and is unique for every seed. Checked in the kernel against the reference value for seed 5489."
  },
  {
   "property": "C59",
   "status": "proved",
   "theorems": [
    "Moo.C59_r_eaf_2d",
    "Moo.C59_r_eaf_3d",
    "Moo.C59_default_levels"
   ],
   "note": "Rows in any order, maximise, percentiles with tolerance of the code. Exact arithmetic; at most 2^30-1 rows (2D), 32767 rows (3D). The argument groups applies the same function to each group."
  },
  {
   "property": "C60",
   "status": "partial",
   "theorems": [
    "Moo.C60_py_eaf_2d_partial",
    "Moo.C60_py_eaf_3d_partial",
    "Moo.C60_py_false_unsorted"
   ],
   "note": "Proved for labels in nondecreasing order. C60_py_false_unsorted shows that it is false for other orders: the function does not sort the rows."
  },
  {
   "property": "C61",
   "status": "partial",
   "theorems": [
    "Moo.C61_py_eafdiff_points_partial",
    "Moo.C61_py_eafdiff_rectangles_partial",
    "Moo.C61_r_eafdiff_points_partial",
    "Moo.C61_r_eafdiff_rectangles_partial",
    "Moo.C61_false_unequal",
    "Moo.C61_r_false_single_row"
   ],
   "note": "Proved for data sets with the same number of sets. False of the code for different numbers of sets; in R a single row becomes a vector (or an error)."
  },
  {
   "property": "C62",
   "status": "partial",
   "theorems": [
    "Moo.C62_largest_eafdiff_partial",
    "Moo.C62_largest_eafdiff_ideal_partial",
    "Moo.C62_errors"
   ],
   "note": "Proved for data sets with the same number of sets when eafdiff returns a matrix for every pair. Otherwise R stops with an error (C62_errors), or the values are those of C61_false_unequal."
  },
  {
   "property": "C63",
   "status": "proved",
   "theorems": [
    "Moo.C63_py_hypervolume",
    "Moo.C63_py_hypervolume_error",
    "Moo.C63_py_object_eq_function",
    "Moo.C63_py_one_objective_undefined",
    "Moo.C63_r_hypervolume",
    "Moo.C63_r_hv_contributions",
    "Moo.C63_r_errors"
   ],
   "note": "For four and more objectives the sort of the C library is assumed to be stable (see C13, C47). Exact arithmetic."
  },
  {
   "property": "C64",
   "status": "partial",
   "theorems": [
    "Moo.C64_data_passed",
    "Moo.C64_mirror_unchanged_partial",
    "Moo.C64_view_changed",
    "Moo.C64_false_view",
    "Moo.C64_normalise_unchanged",
    "Moo.C64_r_whv_rect_unchanged",
    "Moo.C64_py_whv_rect_unchanged_partial",
    "Moo.C64_whv_data_perm",
    "Moo.C64_false_whv_rect",
    "Moo.C64_false_whv_rect_order"
   ],
   "note": "False of the code for views with maximisation and for whv_rect with contiguous arrays in Python (counterexamples); proved otherwise."
  },
  {
   "property": "C65",
   "status": "proved",
   "theorems": [
    "Moo.C65_polygons",
    "Moo.C65_odd_runs_abort"
   ],
   "note": "Both staircases of a level are walked by polyLoop; polyLoop_spec is by induction on the fuel with the invariant PolyInv. Division correctly rounded (binary64); the truncation of the rounded quotient is that of the exact one."
  },
  {
   "property": "C66",
   "status": "proved",
   "theorems": [
    "Moo.C66_hv_shift",
    "Moo.C66_hv_shift_eq_hv"
   ],
   "note": "Exact arithmetic. Stable qsort for four or more objectives as in C47 (C13 shows that it is needed)."
  },
  {
   "property": "C67",
   "status": "proved",
   "theorems": [
    "Moo.C67_hv",
    "Moo.C67_hv_constant_objective",
    "Moo.C67_hv_unreadable",
    "Moo.C67_hv_unreadable_default",
    "Moo.C67_hv_bad_reference",
    "Moo.C67_hv_one_objective_undefined"
   ],
   "note": "Model of main-hv.c on characters, on top of the models of read_double_data (C31/C32), data_bounds (C38), fpli_hv (C13) and fpli_hv_shift (C66), over the reals. Specification in Spec/Cli.lean and Spec/HvMain.lean. getopt_long, messages on stderr and the digits of the output are not modelled; the number scanner is a parameter with the assumptions ScanOk (met by a scanner of integers)."
  },
  {
   "property": "C68",
   "status": "proved",
   "theorems": [
    "Moo.C68_epsilon_additive",
    "Moo.C68_epsilon_mult",
    "Moo.C68_epsilon_mult_reference",
    "Moo.C68_igd",
    "Moo.C68_no_reference",
    "Moo.C68_bad_obj",
    "Moo.C68_all_ignored",
    "Moo.C68_reference_unreadable",
    "Moo.C68_reference_sets_undefined",
    "Moo.C68_long_obj_undefined",
    "Moo.C68_short_obj_misread",
    "Moo.C68_ignored_objective"
   ],
   "note": "Exact arithmetic; getopt_long and the conversion of values to text are not modelled."
  },
  {
   "property": "C69",
   "status": "partial",
   "theorems": [
    "Moo.C69_output_partial",
    "Moo.C69_no_check",
    "Moo.C69_status_partial",
    "Moo.C69_status_two_objectives",
    "Moo.C69_read_back",
    "Moo.C69_out_of_bounds",
    "Moo.C69_bad_option",
    "Moo.C69_bounds_order",
    "Moo.C69_unreadable",
    "Moo.C69_unreadable_bounds",
    "Moo.C69_unreadable_given",
    "Moo.C69_agree_min_undefined",
    "Moo.C69_false_status",
    "Moo.C69_agree_max_keeps_dominated",
    "Moo.C69_short_bounds"
   ],
   "note": "Output, reading back and failures for all options, files and numbers of objectives, except two objectives with --agree when not all objectives are already maximised, where the claim is false (assertion with min, a dominated point kept with max). The status is right except with two objectives, where it is 1 for every checked set with at least two points (the two-objective code returns the number of dominated points)."
  },
  {
   "property": "C70",
   "status": "partial",
   "theorems": [
    "Moo.C70_rank_partial",
    "Moo.C70_order_partial",
    "Moo.C70_directions_ignored",
    "Moo.C70_contribution_range",
    "Moo.C70_order_range",
    "Moo.C70_order_respects_dominance",
    "Moo.C70_repeated_points",
    "Moo.C70_contribution_pos",
    "Moo.C70_unreadable",
    "Moo.C70_two_files",
    "Moo.C70_bad_option",
    "Moo.C70_one_objective_undefined",
    "Moo.C70_false_directions"
   ],
   "note": "Proved for minimisation, with at least two objectives unless -r is given. The directions of -o are ignored (proved, with a counterexample); one objective without -r is undefined behaviour (proved)."
  },
  {
   "property": "C71",
   "status": "partial",
   "theorems": [
    "Moo.C71_counts_partial",
    "Moo.C71_no_check",
    "Moo.C71_rejects",
    "Moo.C71_few_files",
    "Moo.C71_unreadable",
    "Moo.C71_bad_option",
    "Moo.C71_pairs_le",
    "Moo.C71_all_pairs",
    "Moo.C71_all_pairs_trans",
    "Moo.C71_false_single",
    "Moo.C71_false_ignored",
    "Moo.C71_no_check_abort"
   ],
   "note": "The tables are proved for sets of at least two points without ignored objectives, and for all nondominated sets with --no-check. The full claim is false: with the check, sets of one point are rejected (C71_false_single), and with two objectives an ignored one is treated as minimised by the check, after which the program aborts (C71_false_ignored)."
  },
  {
   "property": "C72",
   "status": "partial",
   "theorems": [
    "Moo.C72_eaf_partial",
    "Moo.C72_level_error",
    "Moo.C72_argument_error",
    "Moo.C72_file_error",
    "Moo.C72_objectives_error",
    "Moo.C72_no_data_error",
    "Moo.C72_no_data_undefined",
    "Moo.C72_overflow",
    "Moo.C72_false_single_run",
    "Moo.C72_false_same_file"
   ],
   "note": "Proved with fewer than 50 percentiles and levels, with no file named twice, and with at least two runs if indices are asked for. The full claim is false in the other cases: 50 numbers or more are stored after the end of an array (C72_overflow); a file named twice loses output (C72_false_same_file); a single run is written and counted twice with -i (C72_false_single_run); without data the default verbose output reads a null pointer (C72_no_data_undefined)."
  },
  {
   "property": "C73",
   "status": "partial",
   "theorems": [
    "Moo.C73_py_indicator_partial",
    "Moo.C73_py_error",
    "Moo.C73_py_epsilon_mult_exit",
    "Moo.C73_py_empty",
    "Moo.C73_false_small_exponent",
    "Moo.C73_fractional_exponent",
    "Moo.C73_py_exponent_error",
    "Moo.C73_r_indicator",
    "Moo.C73_r_error",
    "Moo.C73_py_r_agree"
   ],
   "note": "False for fractional exponents: Python accepts p in (0,1) and returns 1, and drops the fractional part of larger p. Proved for all positive integers below 2^31. epsilon_mult ends the process on nonpositive values."
  },
  {
   "property": "C74",
   "status": "proved",
   "theorems": [
    "Moo.C74_py_is_nondominated",
    "Moo.C74_py_filter_dominated",
    "Moo.C74_false_filter_list",
    "Moo.C74_py_filter_idempotent",
    "Moo.C74_py_error",
    "Moo.C74_py_pareto_rank",
    "Moo.C74_py_pareto_rank_empty",
    "Moo.C74_py_normalise",
    "Moo.C74_py_normalise_error",
    "Moo.C74_normalise_default",
    "Moo.C74_r_filter_dominated",
    "Moo.C74_r_pareto_rank",
    "Moo.C74_r_error",
    "Moo.C74_r_normalise"
   ],
   "note": "Ranks of tables without rows with two objectives are undefined behaviour (C74_py_pareto_rank_empty); R repeats or cuts directions of other lengths (RecycledTo), except in pareto_rank."
  },
  {
   "property": "C75",
   "status": "partial",
   "theorems": [
    "Moo.C75_py_whv_rect_partial",
    "Moo.C75_py_total_whv_rect_partial",
    "Moo.C75_py_error",
    "Moo.C75_false_maximise_list",
    "Moo.C75_py_total_error",
    "Moo.C75_r_whv_rect_partial",
    "Moo.C75_r_total_whv_rect_partial",
    "Moo.C75_r_error",
    "Moo.C75_r_total_no_value",
    "Moo.C75_py_total_pareto_partial",
    "Moo.C75_choose_eafdiff_rows",
    "Moo.C75_choose_whv_rect_partial",
    "Moo.C75_false_early_stop"
   ],
   "note": "Proved when the sweep does not stop early (NoEarlyStop, see C34); without that proviso the statement is false of the code (C75_false_early_stop). The documented list of maximise flags is refused by Python (C75_false_maximise_list)."
  },
  {
   "property": "C76",
   "status": "partial",
   "theorems": [
    "Moo.C76_py_vorobT_partial",
    "Moo.C76_py_vorobT_one_set",
    "Moo.C76_py_vorobT_errors",
    "Moo.C76_py_vorobDev",
    "Moo.C76_py_vorobDev_default_partial",
    "Moo.C76_r_vorobT_partial",
    "Moo.C76_r_vorobDev",
    "Moo.C76_r_vorobDev_default_partial",
    "Moo.C76_four_objectives",
    "Moo.C76_false_r_single_point",
    "Moo.C76_false_r_scalar_reference"
   ],
   "note": "vorobDev with given points is proved in full; vorobT is proved for labels in nondecreasing order (Python, see C60) and up to the end of the loop and the early stop (C48); R's vorobT is proved to fail when half of the sets attain a single best point, and with one reference value and mixed directions"
  },
  {
   "property": "C77",
   "status": "proved",
   "theorems": [
    "Moo.C77_accepted",
    "Moo.C77_rbind"
   ],
   "note": "All of it. Exact numbers, no missing values."
  },
  {
   "property": "C78",
   "status": "proved",
   "theorems": [
    "Moo.C78_round_trip",
    "Moo.C78_identity",
    "Moo.C78_empty"
   ],
   "note": "All of it, for any format that the reader inverts on the numbers written (R writes 15 significant digits)."
  },
  {
   "property": "C79",
   "status": "partial",
   "theorems": [
    "Moo.C79_eaf",
    "Moo.C79_eaf_as_list",
    "Moo.C79_attsurf2df",
    "Moo.C79_eaf_values",
    "Moo.C79_groups",
    "Moo.C79_groups_as_list",
    "Moo.C79_groups_given",
    "Moo.C79_false_groups_default"
   ],
   "note": "All of it but one case: with the default percentiles and groups with different numbers of sets, the list has elements without points that are no attainment surfaces (C79_false_groups_default); C79_groups_as_list says exactly which elements those are, and with given percentiles there are none (C79_groups_given)."
  },
  {
   "property": "C80",
   "status": "proved",
   "theorems": [
    "Moo.C80_tree_same_value",
    "Moo.C80_tree_is_volume",
    "Moo.C80_update_keeps_tree",
    "Moo.C80_tree_cleared",
    "Moo.C80_counterexample_with_tree"
   ],
   "note": "The computation on the nodes of the tree (search, insertion, removal, rotations at pointer level) against the computation on the list of items, without any condition on ties; corollary: the volume in three objectives. The bound 2^125 on the number of points keeps the depth field, an unsigned char, from wrapping."
  },
  {
   "property": "C81",
   "status": "proved",
   "theorems": [
    "Moo.C81_eaf3d_tree_same",
    "Moo.C81_eaf3d_tree_surfaces"
   ],
   "note": "eaf3d on the nodes of its trees; simulation against the model of C42"
  },
  {
   "property": "C82",
   "status": "proved",
   "theorems": [
    "Moo.C82_shift_tree_same",
    "Moo.C82_shift_tree_is_volume",
    "Moo.C82_shift_tree_eq_hv_tree"
   ],
   "note": "fpli_hv_shift on the nodes of its tree. Exact arithmetic; the volume for four or more objectives with a stable qsort (see C13, C66)."
  },
  {
   "property": "C83",
   "status": "proved",
   "theorems": [
    "Moo.C83_affine",
    "Moo.C83_permute_objectives",
    "Moo.C83_union",
    "Moo.C83_diminishing_returns",
    "Moo.C83_reference",
    "Moo.C83_contributions_sum"
   ],
   "note": "Laws of the value returned by both packages (BothHv: the modelled Python and R calls return it), in exact arithmetic."
  },
  {
   "property": "C84",
   "status": "proved",
   "theorems": [
    "Moo.C84_add_triangle",
    "Moo.C84_add_union",
    "Moo.C84_add_more_points",
    "Moo.C84_add_self",
    "Moo.C84_mult_log",
    "Moo.C84_mult_triangle",
    "Moo.C84_mult_self",
    "Moo.C84_igd_plus_le_igd",
    "Moo.C84_igd_plus_le_epsilon",
    "Moo.C84_igd_le_hausdorff"
   ],
   "note": "Laws of the values returned by both packages (BothInd), in exact arithmetic; multiplicative laws for positive values."
  },
  {
   "property": "C85",
   "status": "proved",
   "theorems": [
    "Moo.C85_same_order",
    "Moo.C85_same_order_one_copy",
    "Moo.C85_rank_one",
    "Moo.C85_permute_rows"
   ],
   "note": "Over any ordered field; sameOrder_of_monotone shows that strictly monotone changes keep the order."
  },
  {
   "property": "C86",
   "status": "proved",
   "theorems": [
    "Moo.C86_eaf_change_of_units",
    "Moo.C86_eaf_labelled_points",
    "Moo.C86_eaf_first_surface",
    "Moo.C86_eafdiff_swap",
    "Moo.C86_eafdiff_self",
    "Moo.C86_eafdiff_bound"
   ],
   "note": "From the characterisations of C79 and C61; eaf of the R package, eafdiff (points) of the Python package with equally many sets on both sides."
  },
  {
   "property": "C87",
   "status": "partial",
   "theorems": [
    "Moo.C87_polygons_partial",
    "Moo.C87_all_levels_partial",
    "Moo.C87_false_odd_runs",
    "Moo.C87_false_level_order",
    "Moo.C87_false_level_gap"
   ],
   "note": "Two objectives, an even number of runs, successive levels. Otherwise false: an odd number of runs or levels in another order abort, and with a gap between levels the colour is not the difference. Three objectives are not modelled."
  },
  {
   "property": "C88",
   "status": "proved",
   "theorems": [
    "Moo.C88_memory_safe",
    "Moo.C88_independent_of_memory",
    "Moo.C88_false_minus_infinity"
   ],
   "note": "fpli_hv for d >= 3 on memory whose cells are undefined until written; the bookkeeping of the AVL nodes is C80. For coordinates below -DBL_MAX (minus infinity) the claim is false: C88_false_minus_infinity."
  },
  {
   "property": "C89",
   "status": "proved",
   "theorems": [
    "Moo.C89_hv_exact_on_grid",
    "Moo.C89_hv_exact_integers"
   ],
   "note": "Any number of objectives of at least two and any rounding to nearest without overflow. The first theorem compares with the run in exact arithmetic for every order of ties; the second one with the volume, for a stable qsort in four or more objectives (as C47) and for any qsort in two or three."
  },
  {
   "property": "C90",
   "status": "proved",
   "theorems": [
    "Moo.C90_hv3d_float_error",
    "Moo.C90_hv3d_float_error_simple",
    "Moo.C90_dominated_point_lowers_value"
   ],
   "note": "Three objectives; overflow is not modelled, underflow is. For four or more objectives the comparison of two rounded areas decides which points are skipped later, so that the computed and the exact run may differ in control flow; no bound is claimed there."
  },
  {
   "property": "C91",
   "status": "proved",
   "theorems": [
    "Moo.C91_contributions_exact_on_grid",
    "Moo.C91_contributions_exact_integers",
    "Moo.C91_contribution3d_error",
    "Moo.C91_contribution2d_dominated",
    "Moo.C91_assertion_fails_3d",
    "Moo.C91_assertion_fails_2d"
   ],
   "note": "Rounding to nearest without overflow. The error bound is for three objectives (see C90). The last two theorems show that the assertion at the end of hv_contributions fails for some inputs."
  },
  {
   "property": "C92",
   "status": "proved",
   "theorems": [
    "Moo.C92_hv4d_value_lost",
    "Moo.C92_added_point_erases_value",
    "Moo.C92_contribution_negative",
    "Moo.C92_points_distinct_doubles"
   ],
   "note": "The run of fpliHvF on the three points is evaluated for every nearest rounding, every environment and every initial memory."
  },
  {
   "property": "C93",
   "status": "proved",
   "theorems": [
    "Moo.C93_hv",
    "Moo.C93_hv_append",
    "Moo.C93_hv_args",
    "Moo.C93_epsilon",
    "Moo.C93_epsilon_append",
    "Moo.C93_epsilon_args",
    "Moo.C93_igd",
    "Moo.C93_igd_append",
    "Moo.C93_igd_args",
    "Moo.C93_nondominated",
    "Moo.C93_nondominated_append",
    "Moo.C93_nondominated_args",
    "Moo.C93_ndsort",
    "Moo.C93_ndsort_append",
    "Moo.C93_ndsort_args",
    "Moo.C93_dominatedsets",
    "Moo.C93_dominatedsets_append",
    "Moo.C93_dominatedsets_args",
    "Moo.C93_eaf",
    "Moo.C93_eaf_append",
    "Moo.C93_eaf_args",
    "Moo.C93_hv_no_abort",
    "Moo.C93_nondominated_no_abort",
    "Moo.C93_ndsort_no_abort",
    "Moo.C93_dominatedsets_no_abort",
    "Moo.C93_eaf_no_abort",
    "Moo.C93_epsilon_abort_only",
    "Moo.C93_igd_abort_only",
    "Moo.C93_epsilon_u_aborts",
    "Moo.C93_igd_u_m_abort",
    "Moo.C93_igd_p_rejected",
    "Moo.C93_nondominated_m_L_rejected",
    "Moo.C93_usage_has"
   ],
   "note": "getopt_long itself belongs to the C library; it is modelled after its documentation (GNU, POSIXLY_CORRECT unset)."
  },
  {
   "property": "C94",
   "status": "proved",
   "theorems": [
    "Moo.C94_hv_dash",
    "Moo.C94_nondominated_clobber",
    "Moo.C94_epsilon",
    "Moo.C94_epsilon_stdin",
    "Moo.C94_epsilon_help",
    "Moo.C94_epsilon_no_reference_file",
    "Moo.C94_epsilon_frame",
    "Moo.C94_epsilon_reads",
    "Moo.C94_epsilon_missing",
    "Moo.C94_igd",
    "Moo.C94_igd_stdin",
    "Moo.C94_igd_help",
    "Moo.C94_igd_no_reference_file",
    "Moo.C94_igd_frame",
    "Moo.C94_igd_reads",
    "Moo.C94_igd_missing",
    "Moo.C94_hv",
    "Moo.C94_hv_stdin",
    "Moo.C94_hv_help",
    "Moo.C94_hv_bad_reference",
    "Moo.C94_hv_invalid",
    "Moo.C94_hv_frame",
    "Moo.C94_hv_reads",
    "Moo.C94_hv_missing",
    "Moo.C94_nondominated",
    "Moo.C94_nondominated_stdin",
    "Moo.C94_nondominated_help",
    "Moo.C94_nondominated_frame",
    "Moo.C94_nondominated_check",
    "Moo.C94_nondominated_reads",
    "Moo.C94_nondominated_missing"
   ],
   "note": "The file system is a function from names to contents: fopen succeeds exactly for existing input files, writing always succeeds. Messages on the standard error stream are not modelled. hv: for the values of lib (C67); the conversion of values to text is a parameter."
  },
  {
   "property": "C95",
   "status": "proved",
   "theorems": [
    "Moo.C95_eaf3d_memory",
    "Moo.C95_eaf3d_leaks"
   ],
   "note": "eaf3d with a ledger of allocated blocks and arbitrary content of released memory; exact set of blocks left at return"
  },
  {
   "property": "C96",
   "status": "proved",
   "theorems": [
    "Moo.C96_search_closest",
    "Moo.C96_search",
    "Moo.C96_insert_after",
    "Moo.C96_insert_before",
    "Moo.C96_insert_node",
    "Moo.C96_unlink_node",
    "Moo.C96_delete"
   ],
   "note": "Timed copies of the AVL functions: the result is that of the untimed model (C36, C37), the number of loop iterations and calls is at most c1*log2 n + c2."
  },
  {
   "property": "C97",
   "status": "proved",
   "theorems": [
    "Moo.C97_two_objectives",
    "Moo.C97_steps",
    "Moo.C97_three_objectives",
    "Moo.C97_big_O"
   ],
   "note": "qsort is not counted; steps are loop iterations and calls of recursive functions"
  },
  {
   "property": "C98",
   "status": "proved",
   "theorems": [
    "Moo.C98_is_nondominated_2d",
    "Moo.C98_is_nondominated",
    "Moo.C98_pareto_rank_2d",
    "Moo.C98_pareto_rank",
    "Moo.C98_epsilon_additive",
    "Moo.C98_epsilon_mult"
   ],
   "note": "qsort is not counted; a step is one iteration of a loop"
  },
  {
   "property": "C99",
   "status": "proved",
   "theorems": [
    "Moo.C99_hv_no_overflow",
    "Moo.C99_contributions_no_overflow",
    "Moo.C99_hv_exact_integers",
    "Moo.C99_epsilon_additive_no_overflow",
    "Moo.C99_epsilon_mult_no_overflow",
    "Moo.C99_igd_no_overflow",
    "Moo.C99_normalise_no_overflow",
    "Moo.C99_percentile_no_overflow",
    "Moo.C99_overflow_reached"
   ],
   "note": "Machine64 rounds to nearest up to 2^1023 and is arbitrary beyond, so the theorems say no operation leaves that range. The bound for the hypervolume is sufficient, not necessary."
  },
  {
   "property": "C100",
   "status": "proved",
   "theorems": [
    "Moo.C100_mex_hypervolume",
    "Moo.C100_mex_default_reference",
    "Moo.C100_mex_single_point",
    "Moo.C100_mex_help",
    "Moo.C100_mex_errors",
    "Moo.C100_mex_empty_undefined",
    "Moo.C100_mex_one_objective_undefined",
    "Moo.C100_mex_class_undefined"
   ],
   "note": "The three undefined cases are stated as such (defect 60)."
  },
  {
   "property": "C101",
   "status": "proved",
   "theorems": [
    "Moo.C101_point_value",
    "Moo.C101_point_one_number",
    "Moo.C101_point_mean",
    "Moo.C101_point_consistent",
    "Moo.C101_bivariate_normal_fill",
    "Moo.C101_false_point_weight"
   ],
   "note": "minimisation (maximise negates points, ideal and ref but not mu: C49); exact arithmetic; the standard normal numbers of rng_standard_normal are taken as given; C101_false_point_weight shows the documented weight is not realised"
  },
  {
   "property": "C102",
   "status": "proved",
   "theorems": [
    "Moo.C102_eaf2d_time",
    "Moo.C102_reallocs_le",
    "Moo.C102_reallocs_ge",
    "Moo.C102_false_log_reallocs",
    "Moo.C102_no_realloc"
   ],
   "note": "steps are evaluations of loop conditions and elements of arrays of nruns elements copied or set; qsort, malloc and the copying inside realloc are not counted; the growth of line 131 in exact arithmetic"
  },
  {
   "property": "C103",
   "status": "proved",
   "theorems": [
    "Moo.C103_is_nondominated_safe",
    "Moo.C103_find_dominated_safe",
    "Moo.C103_pareto_rank_safe",
    "Moo.C103_pareto_rank_asserts",
    "Moo.C103_same_filter",
    "Moo.C103_same_rank",
    "Moo.C103_false_empty",
    "Moo.C103_false_nan_assertion",
    "Moo.C103_false_ignored"
   ],
   "note": "Blocks of cells with bounds and initialisation checks; comparisons are arbitrary Boolean functions, qsort any permutation. The exceptions named in the statement are proved as C103_false_*. Not modelled: int overflow, failures of malloc, free."
  },
  {
   "property": "C104",
   "status": "proved",
   "theorems": [
    "Moo.C104_filter_ignores_nan",
    "Moo.C104_rank_ignores_nan",
    "Moo.C104_false_2d_filter",
    "Moo.C104_false_2d_rank"
   ],
   "note": "On the memory model of C103 with the IEEE comparisons of Option α (none = NaN)."
  },
  {
   "property": "C105",
   "status": "proved",
   "theorems": [
    "Moo.C105_additive_finite",
    "Moo.C105_additive_nan_iff",
    "Moo.C105_additive_nan_cases",
    "Moo.C105_additive_nan_point",
    "Moo.C105_additive_nan_reference",
    "Moo.C105_additive_nan_objective",
    "Moo.C105_mult_error_iff",
    "Moo.C105_mult_nan_iff",
    "Moo.C105_mult_nan_point",
    "Moo.C105_mult_nan_reference",
    "Moo.C105_distance_finite",
    "Moo.C105_distance_never_nan",
    "Moo.C105_distance_nan_infinite",
    "Moo.C105_distance_infinite",
    "Moo.C105_distance_nan_ignored",
    "Moo.C105_igd_plus_nan_good",
    "Moo.C105_igd_plus_all_nan",
    "Moo.C105_false_order",
    "Moo.C105_false_dominance"
   ],
   "note": "Exact arithmetic on finite values; NaN and infinities as in IEEE 754. C105_false_* are the witnesses that a NaN is neither ignored nor reported. An infinite coordinate makes the distances infinite, even between equal sets (C105_distance_infinite)."
  },
  {
   "property": "C106",
   "status": "proved",
   "theorems": [
    "Moo.C106_standard_normal",
    "Moo.C106_terminates",
    "Moo.C106_fuel",
    "Moo.C106_independent",
    "Moo.C106_table_exists"
   ],
   "note": "Ziggurat method with exact arithmetic, real-valued uniform numbers and ideal tables (the header's 256 entries satisfy the equations up to rounding; that was checked numerically outside Lean). The index is a Fin N and idx-1 is only read for idx != 0."
  },
  {
   "property": "C107",
   "status": "proved",
   "theorems": [
    "Moo.C107_whv_rect_float_error",
    "Moo.C107_whv_rect_float_nonneg",
    "Moo.C107_whv_rect_float_exact"
   ],
   "note": "Overflow is outside the model (the set binary64 has no largest exponent). The condition on the lowest upper side is that of C34."
  },
  {
   "property": "C108",
   "status": "proved",
   "theorems": [
    "Moo.C108_eaf2d_safe",
    "Moo.C108_eaf2d_asserts",
    "Moo.C108_no_nan",
    "Moo.C108_false_empty",
    "Moo.C108_false_nan_assertion",
    "Moo.C108_false_nan_loses_point"
   ],
   "note": "eaf2d with every load and store checked against block bounds and initialisation; comparison functions of doubles abstract (any FCmp), so NaN is covered. The storage of points (eaf_store_point, eaf_realloc) is C102. The cost of failing allocations is not modelled."
  },
  {
   "property": "C109",
   "status": "proved",
   "theorems": [
    "Moo.C109_gc_safe",
    "Moo.C109_no_leak_on_error",
    "Moo.C109_returns",
    "Moo.C109_executions_exist",
    "Moo.C109_type_error",
    "Moo.C109_unprotected_fails",
    "Moo.C109_false_leak_on_error",
    "Moo.C109_false_leak_hausdorff"
   ],
   "note": "The semantics of R's allocator and collector is a relation: at every allocation any set of unreachable objects may be released and any allocation may fail. The leak on an error of R (is_nondominated with keep_weakly = NA, avg_hausdorff with p = NA) is proved as a witness."
  },
  {
   "property": "C110",
   "status": "proved",
   "theorems": [
    "Moo.C110_standard_normal",
    "Moo.C110_terminates",
    "Moo.C110_independent",
    "Moo.zigTab_near"
   ],
   "note": "The 256-entry tables and the two tail constants digit by digit, each rounded to nearest; uniform numbers real-valued, arithmetic and exp/log inside the function exact."
  },
  {
   "property": "C111",
   "status": "proved",
   "theorems": [
    "Moo.C111_mean",
    "Moo.C111_consistent",
    "Moo.C111_returns"
   ],
   "note": "C101 and C110 combined. Uniform numbers real-valued, arithmetic exact apart from the rounded tables."
  },
  {
   "property": "C112",
   "status": "proved",
   "theorems": [
    "Moo.C112_words",
    "Moo.C112_random",
    "Moo.C112_limit",
    "Moo.C112_whv_hype_mean",
    "Moo.mtKey_card"
   ],
   "note": "Counting over all 2^19968 contents of the array with any reachable position; seeding by a 32-bit number reaches only 2^32 of them, so this is a statement about the generator, not about a seed. The period is not proved. whv_hype is with exact arithmetic after rng_random."
  },
  {
   "property": "C113",
   "status": "proved",
   "theorems": [
    "Moo.C113_hv",
    "Moo.C113_hv2d",
    "Moo.C113_row_index",
    "Moo.C113_row_start",
    "Moo.C113_shift_index",
    "Moo.C113_matrix_alloc",
    "Moo.C113_eaf_rows",
    "Moo.C113_eaf_matrix",
    "Moo.C113_eaf_matrix_R",
    "Moo.C113_eaf2d",
    "Moo.C113_read"
   ],
   "note": "int of 32 bits with undefined overflow, size_t of 64 bits modulo 2^64. The expressions are those of the cited lines; the other models use unbounded integers. The limits of pos++ in compute_eafdiff_C and of counters inside the algorithms are not part of it. Allocation itself succeeds."
  },
  {
   "property": "C114",
   "status": "proved",
   "theorems": [
    "Moo.C114_normalise",
    "Moo.C114_agree_normalise",
    "Moo.C114_normalise_nan",
    "Moo.C114_preprocess",
    "Moo.C114_whv_rect_safe",
    "Moo.C114_estimate_whv",
    "Moo.C114_whv_hype_safe",
    "Moo.C114_same_normalise",
    "Moo.C114_same_whv_rect",
    "Moo.C114_whv_rect_value",
    "Moo.C114_same_whv_hype",
    "Moo.C114_hype_nan_point",
    "Moo.C114_whv_nan_aborts",
    "Moo.C114_false_nan_ignored",
    "Moo.C114_false_nan_corner"
   ],
   "note": "qsort may leave any permutation of the rows. The two C114_false theorems are witnesses that a NaN in whv_rect is neither rejected nor ignored."
  },
  {
   "property": "C115",
   "status": "proved",
   "theorems": [
    "Moo.C115_hv2d_safe",
    "Moo.C115_hv3d_safe",
    "Moo.C115_hv3d_safe_list",
    "Moo.C115_contributions",
    "Moo.C115_one_point_diffs",
    "Moo.C115_filter",
    "Moo.C115_one_point",
    "Moo.C115_zero",
    "Moo.C115_nan_ref",
    "Moo.C115_nan_objective",
    "Moo.C115_nan_ref_2d",
    "Moo.C115_nan_point_2d",
    "Moo.C115_same_hv2d",
    "Moo.C115_same_hv",
    "Moo.C115_same_volume",
    "Moo.C115_same_safe",
    "Moo.C115_contrib_nan",
    "Moo.C115_false_hv2d_nan",
    "Moo.C115_false_hv3d_nan",
    "Moo.C115_false_hv4d_nan"
   ],
   "note": "The recursion for four or more objectives with arbitrary doubles is not safe (last theorem); for numbers without NaN it is (C88, C115_same_safe). For three objectives the tree is the list of its items and a search may end at any position."
  },
  {
   "property": "C116",
   "status": "proved",
   "theorems": [
    "Moo.C116_rows",
    "Moo.C116_safe",
    "Moo.C116_two_objectives",
    "Moo.C116_count",
    "Moo.C116_nan",
    "Moo.C116_false_antichain"
   ],
   "note": "For arbitrary comparisons of doubles and any permutation left by qsort. With two objectives the property is false; C116_two_objectives says exactly when the run is correct and what happens otherwise, C116_false_antichain that a set with nothing to remove always overflows the block."
  },
  {
   "property": "C117",
   "status": "proved",
   "theorems": [
    "Moo.C117_elapsed",
    "Moo.C117_difference",
    "Moo.C117_nonneg",
    "Moo.C117_at_most",
    "Moo.C117_false_stopped",
    "Moo.C117_false_continued_twice"
   ],
   "note": "Exact arithmetic; the answers of gettimeofday and getrusage are arbitrary."
  },
  {
   "property": "C118",
   "status": "proved",
   "theorems": [
    "Moo.C118_eaf",
    "Moo.C118_eaf_done",
    "Moo.C118_eaf_polygons",
    "Moo.C118_eaf_surfaces",
    "Moo.C118_eaf_missing",
    "Moo.C118_eaf_argument",
    "Moo.C118_eaf_bad_file",
    "Moo.C118_eaf_emptied",
    "Moo.C118_eaf_emptied_example",
    "Moo.C118_eaf_frame",
    "Moo.C118_ndsort",
    "Moo.C118_ndsort_ranks",
    "Moo.C118_ndsort_orders",
    "Moo.C118_ndsort_options",
    "Moo.C118_ndsort_missing",
    "Moo.C118_ndsort_frame",
    "Moo.C118_dominatedsets",
    "Moo.C118_dominatedsets_tables",
    "Moo.C118_dominatedsets_options",
    "Moo.C118_dominatedsets_missing",
    "Moo.C118_dominatedsets_frame"
   ],
   "note": "File effects of eaf, ndsort and dominatedsets on every file system. Files are names with contents: files that exist and cannot be opened, two names of one file and the texts of messages are not modelled; formatted values and headers are parameters. eaf -o F with a wrong level or percentile empties F (C118_eaf_emptied); a wrong argument, an unreadable or a missing file leaves it alone."
  },
  {
   "property": "C119",
   "status": "proved",
   "theorems": [
    "Moo.C119_words",
    "Moo.C119_empty",
    "Moo.C119_never_stuck",
    "Moo.C119_different_arrays",
    "Moo.C119_false_lengths",
    "Moo.C119_false_long"
   ],
   "note": "mtArray_exists: the sequence of the specification exists and is unique. C119_false_*: arrays that are not told apart."
  },
  {
   "property": "C120",
   "status": "proved",
   "theorems": [
    "Moo.C120_range",
    "Moo.C120_exact",
    "Moo.C120_false_open"
   ],
   "note": "Finite arguments and no overflow of high - low."
  },
  {
   "property": "C121",
   "status": "proved",
   "theorems": [
    "Moo.C121_reports",
    "Moo.C121_symmetric",
    "Moo.C121_rectangles",
    "Moo.C121_check",
    "Moo.C121_false_notch"
   ],
   "note": "C121_false_notch is the witness that the check is not exact beyond rectangles. That the polygons of eaf_compute_polygon pass the check is not claimed."
  }
 ]
}