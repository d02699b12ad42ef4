Moo.C01_isNondominated_keep_exact propext Classical.choice Quot.sound
Moo.C02_isNondominated_delete_exact propext Classical.choice Quot.sound
Moo.C03_fastpath_keep_eq propext Classical.choice Quot.sound
Moo.C03_fastpath_delete_eq propext Classical.choice Quot.sound
Moo.C04_filter_sound_complete propext Classical.choice Quot.sound
Moo.C04_filter_idempotent propext Classical.choice Quot.sound
Moo.C05_count_partial propext Classical.choice Quot.sound
Moo.C05_get_nondominated_set_partial propext Classical.choice Quot.sound
Moo.C05_count_2d_returns_dominated propext Classical.choice Quot.sound
Moo.C05_false_2d propext Classical.choice Quot.sound
Moo.C05_get_nondominated_set_overflow_2d propext Classical.choice Quot.sound
Moo.C06_find_dominated_partial propext Classical.choice Quot.sound
Moo.C06_false_single propext Classical.choice Quot.sound
Moo.C07_maximise_is_negation propext Classical.choice Quot.sound
Moo.C07_maximise_is_negation_delete propext Classical.choice Quot.sound
Moo.C08_general_peels propext Classical.choice Quot.sound
Moo.C08_pareto_rank_peels propext Classical.choice Quot.sound
Moo.C08_front_unique propext Quot.sound
Moo.C08_pareto_rank_py propext Classical.choice Quot.sound
Moo.C09_rank2d_eq_general propext Classical.choice Quot.sound
Moo.C09_empty_2d propext
Moo.C10_rank_respects_dominance propext Classical.choice Quot.sound
Moo.C10_rank_one_iff_filter propext Classical.choice Quot.sound
Moo.C11_hv2d_is_area propext Classical.choice Quot.sound
Moo.C12_hv3d_is_volume propext Classical.choice Quot.sound
Moo.C13_hv_is_volume_partial propext Classical.choice Quot.sound
Moo.C13_false_for_unstable_sort propext Classical.choice Quot.sound
Moo.C14_hv_equal_of_equivalent_sets_partial propext Classical.choice Quot.sound
Moo.C14_hv_same_rows_partial propext Classical.choice Quot.sound
Moo.C14_hv_extra_rows_partial propext Classical.choice Quot.sound
Moo.C15_hv_monotone_partial propext Classical.choice Quot.sound
Moo.C15_hv_strictly_monotone_partial propext Classical.choice Quot.sound
Moo.C15_hv_zero_iff_partial propext Classical.choice Quot.sound
Moo.C16_contribution_is_exclusive_volume_partial propext Classical.choice Quot.sound
Moo.C16_contribution_zero_of_dominated_partial propext Classical.choice Quot.sound
Moo.C17_epsilon_additive_least propext Classical.choice Quot.sound
Moo.C17_epsilon_additive_empty propext Quot.sound
Moo.C17_epsilon_additive_nonpos_iff propext Classical.choice Quot.sound
Moo.C18_epsilon_mult_least propext Classical.choice Quot.sound
Moo.C18_epsilon_mult_error_iff propext Classical.choice Quot.sound
Moo.C19_epsilon_additive_ind propext Classical.choice Quot.sound
Moo.C20_igd_mean_nearest propext Classical.choice Quot.sound
Moo.C20_gd_mean_nearest propext Classical.choice Quot.sound
Moo.C20_avg_hausdorff propext Classical.choice Quot.sound
Moo.C20_avg_hausdorff_symm propext Classical.choice Quot.sound
Moo.C20_igd_nonneg_zero_iff propext Classical.choice Quot.sound
Moo.C20_igd_empty propext Classical.choice Quot.sound
Moo.C21_igd_plus_mean_nearest propext Classical.choice Quot.sound
Moo.C21_igd_plus_compliant propext Classical.choice Quot.sound
Moo.C21_igd_plus_zero_iff propext Classical.choice Quot.sound
Moo.C22_normalise_bounds propext Classical.choice Quot.sound
Moo.C22_normalise_in_range propext Classical.choice Quot.sound
Moo.C22_normalise_dominance propext Classical.choice Quot.sound
Moo.C22_normalise_frame propext Quot.sound
Moo.C23_eaf2d_minimal_points propext Classical.choice Quot.sound
Moo.C23_empty_run_misassigned propext Classical.choice Quot.sound
Moo.C23_false_empty_run propext Classical.choice Quot.sound
Moo.C24_eaf2d_attained propext Classical.choice Quot.sound
Moo.C24_eaf2d_bits propext Classical.choice Quot.sound
Moo.C25_eaf2d_sorted_nested propext Classical.choice Quot.sound
Moo.C25_eaf_matrix propext Classical.choice Quot.sound
Moo.C26_percentile2level_least propext Classical.choice Quot.sound
Moo.C26_percentile2level_mono propext Classical.choice Quot.sound
Moo.C26_percentile2level_level2percentile propext Classical.choice Quot.sound
Moo.C26_percentile2level_assert_iff propext Classical.choice Quot.sound
Moo.C26_default_levels propext Classical.choice Quot.sound
Moo.C27_eafdiff_value_equal_sides_partial propext Classical.choice Quot.sound
Moo.C27_eafdiff_range propext Classical.choice Quot.sound
Moo.C27_eafdiff_antisymm propext Classical.choice Quot.sound
Moo.C27_false_unequal_sides propext Classical.choice Quot.sound
Moo.C28_bit_array_history propext Classical.choice Quot.sound
Moo.C28_bit_array_get_set propext Classical.choice Quot.sound
Moo.C28_bit_nwords propext Classical.choice Quot.sound
Moo.C28_store_attained propext Classical.choice Quot.sound
Moo.C29_cvector_refines_list propext Quot.sound
Moo.C29_at_end_not_caught propext
Moo.C30_transpose propext Classical.choice Quot.sound
Moo.C30_transpose_transpose propext Classical.choice Quot.sound
Moo.C30_eaf2matrix propext Quot.sound
Moo.C30_eaf2matrix_R propext Quot.sound
Moo.C30_eaf2matrix_same propext Classical.choice Quot.sound
Moo.C31_layout propext Classical.choice Quot.sound
Moo.C31_round_trip propext Classical.choice Quot.sound
Moo.C31_filtered propext Classical.choice Quot.sound
Moo.C31_comment_splits propext Quot.sound
Moo.C31_round_trip_int propext Classical.choice Quot.sound
Moo.scanInt_ok propext Quot.sound
Moo.printInt_ok propext Quot.sound
Moo.C32_read_total propext Classical.choice Quot.sound
Moo.C32_accept propext Classical.choice Quot.sound
Moo.C32_empty propext Classical.choice Quot.sound
Moo.C32_conversion propext Classical.choice Quot.sound
Moo.C32_columns propext Classical.choice Quot.sound
Moo.C32_append propext Classical.choice Quot.sound
Moo.C32_cases propext Quot.sound
Moo.C33_read_datasets propext Classical.choice Quot.sound
Moo.C33_R_read_datasets propext Classical.choice Quot.sound
Moo.C33_R_empty_out_of_bounds propext Classical.choice Quot.sound
Moo.C34_rect_weighted_hv2d_partial propext Classical.choice Quot.sound
Moo.C34_false_early_stop propext Classical.choice Quot.sound
Moo.C34_false_dominated_point propext Classical.choice Quot.sound
Moo.C34_repeated_point_abort propext Classical.choice Quot.sound
Moo.C35_estimate propext Classical.choice Quot.sound
Moo.C35_value propext Classical.choice Quot.sound
Moo.C35_range propext Classical.choice Quot.sound
Moo.C35_monotone propext Classical.choice Quot.sound
Moo.C35_uniform propext Classical.choice Quot.sound
Moo.C35_exponential propext Classical.choice Quot.sound
Moo.C35_exponential_abort propext Classical.choice Quot.sound
Moo.C35_point propext Classical.choice Quot.sound
Moo.C36_insert_after propext Classical.choice Quot.sound
Moo.C36_insert_before propext Classical.choice Quot.sound
Moo.C36_insert_after_null propext Classical.choice Quot.sound
Moo.C36_insert_before_null propext Classical.choice Quot.sound
Moo.C36_delete propext Classical.choice Quot.sound
Moo.C36_step propext Classical.choice Quot.sound
Moo.C36_history propext Classical.choice Quot.sound
Moo.C37_search_closest propext Classical.choice Quot.sound
Moo.C37_search propext Classical.choice Quot.sound
Moo.C37_insert_sorted propext Classical.choice Quot.sound
Moo.C37_delete_key propext Classical.choice Quot.sound
Moo.C38_data_bounds propext Classical.choice Quot.sound
Moo.C38_data_bounds_hv propext Classical.choice Quot.sound
Moo.C38_data_bounds_accumulate propext Quot.sound
Moo.C38_force_bounds propext Classical.choice Quot.sound
Moo.C38_force_bounds_rows propext Classical.choice Quot.sound
Moo.C39_pareto_better propext Classical.choice Quot.sound
Moo.C39_equal_fronts propext Quot.sound
Moo.C39_strict_order propext Classical.choice Quot.sound
Moo.C39_cmpparetos propext Classical.choice Quot.sound
Moo.C39_rank propext Quot.sound
Moo.C39_check_exact propext Classical.choice Quot.sound
Moo.C39_check_rejects_single propext Classical.choice Quot.sound
Moo.C39_no_check_abort propext Classical.choice Quot.sound
Moo.C40_within_sets propext Classical.choice Quot.sound
Moo.C40_is_nondominated_keep propext Classical.choice Quot.sound
Moo.C40_is_nondominated_delete propext Classical.choice Quot.sound
Moo.C40_filter propext Classical.choice Quot.sound
Moo.C40_apply_per_row propext Classical.choice Quot.sound
Moo.C40_apply_per_set propext Classical.choice Quot.sound
Moo.C41_vorobDev_partial propext Classical.choice Quot.sound
Moo.C42_eaf3d_minimal_points propext Classical.choice Quot.sound
Moo.C42_eaf3d_attained propext Classical.choice Quot.sound
Moo.C42_eaf3d_bits propext Classical.choice Quot.sound
Moo.C42_eaf_matrix propext Classical.choice Quot.sound
Moo.C43_rectangles propext Classical.choice Quot.sound
Moo.C43_odd_runs_abort propext Quot.sound
Moo.C44_null propext Quot.sound
Moo.C44_exit propext Classical.choice Quot.sound
Moo.C44_directions propext Quot.sound
Moo.C44_short_count propext
Moo.C44_bitvector propext Quot.sound
Moo.C45_calculate_uev propext Quot.sound
Moo.C45_exists propext Classical.choice Quot.sound
Moo.C46_ignored_objectives_partial propext Classical.choice Quot.sound
Moo.C46_false_2d propext Classical.choice Quot.sound
Moo.C46_assert_2d propext
Moo.C47_hv_is_volume_stable_sort propext Classical.choice Quot.sound
Moo.C47_hv_is_volume_no_ties propext Classical.choice Quot.sound
Moo.exists_stable_env propext Classical.choice Quot.sound
Moo.C48_bracket_partial propext Classical.choice Quot.sound
Moo.C48_false_early_stop propext Classical.choice Quot.sound
Moo.C48_no_termination_exact propext Classical.choice Quot.sound
Moo.C49_uniform_maximise_partial propext Classical.choice Quot.sound
Moo.C49_false_point_maximise propext Classical.choice Quot.sound
Moo.C50_epsilon_additive_float propext Classical.choice Quot.sound
Moo.C50_epsilon_additive_float_nonpos_iff propext Classical.choice Quot.sound
Moo.C50_epsilon_additive_ind_float propext Classical.choice Quot.sound
Moo.C50_epsilon_mult_float propext Classical.choice Quot.sound
Moo.C50_epsilon_mult_float_error_iff propext Classical.choice Quot.sound
Moo.C50_epsilon_mult_float_le_one_iff propext Classical.choice Quot.sound
Moo.C51_percentile_roundtrip_float propext Classical.choice Quot.sound
Moo.C51_all_percentiles_float propext Classical.choice Quot.sound
Moo.C51_percentile2level_float propext Classical.choice Quot.sound
Moo.C51_percentile2level_float_lower propext Classical.choice Quot.sound
Moo.C51_percentile2level_float_mono propext Classical.choice Quot.sound
Moo.C52_hv2d_float_error propext Classical.choice Quot.sound
Moo.C52_hv2d_float_nonneg propext Classical.choice Quot.sound
Moo.C52_hv2d_float_order propext Classical.choice Quot.sound
Moo.C52_hv2d_float_dominated propext Classical.choice Quot.sound
Moo.C53_igd_float_error propext Classical.choice Quot.sound
Moo.C53_igd_plus_float_error propext Classical.choice Quot.sound
Moo.C53_igd_plus_float_compliant propext Classical.choice Quot.sound
Moo.C54_normalise_float_weak_dominance propext Classical.choice Quot.sound
Moo.C54_normalise_float_best propext Classical.choice Quot.sound
Moo.C54_normalise_float_unit_range propext Classical.choice Quot.sound
Moo.C54_normalise_float_exceeds_range propext Classical.choice Quot.sound
Moo.C54_normalise_float_dominance_lost propext Classical.choice Quot.sound
Moo.C55_hv_approx_unbiased propext Classical.choice Quot.sound
Moo.C55_hv_approx_consistent propext Classical.choice Quot.sound
Moo.C56_hv_approx_monotone propext Classical.choice Quot.sound
Moo.C56_hv_approx_equal_of_equivalent_sets propext Classical.choice Quot.sound
Moo.C56_hv_approx_isSome_iff propext Classical.choice Quot.sound
Moo.C56_hv_approx_raises propext Classical.choice Quot.sound
Moo.C57_whv_hype_uniform_unbiased propext Classical.choice Quot.sound
Moo.C57_between_eq_hypervolume propext Classical.choice Quot.sound
Moo.C57_whv_hype_uniform_consistent propext Classical.choice Quot.sound
Moo.C57_whv_hype_exponential_mean propext Classical.choice Quot.sound
Moo.C58_words propext Classical.choice Quot.sound
Moo.C58_periodic propext Classical.choice Quot.sound
Moo.C58_different_seeds propext Classical.choice Quot.sound
Moo.C58_never_stuck propext Classical.choice Quot.sound
Moo.C58_random propext Classical.choice Quot.sound
Moo.C58_whv_hype_uniform propext Classical.choice Quot.sound
Moo.C59_r_eaf_2d propext Classical.choice Quot.sound
Moo.C59_r_eaf_3d propext Classical.choice Quot.sound
Moo.C59_default_levels propext Classical.choice Quot.sound
Moo.C60_py_eaf_2d_partial propext Classical.choice Quot.sound
Moo.C60_py_eaf_3d_partial propext Classical.choice Quot.sound
Moo.C60_py_false_unsorted propext Classical.choice Quot.sound
Moo.C61_py_eafdiff_points_partial propext Classical.choice Quot.sound
Moo.C61_py_eafdiff_rectangles_partial propext Classical.choice Quot.sound
Moo.C61_r_eafdiff_points_partial propext Classical.choice Quot.sound
Moo.C61_r_eafdiff_rectangles_partial propext Classical.choice Quot.sound
Moo.C61_false_unequal propext Classical.choice Quot.sound
Moo.C61_r_false_single_row propext Classical.choice Quot.sound
Moo.C62_largest_eafdiff_partial propext Classical.choice Quot.sound
Moo.C62_largest_eafdiff_ideal_partial propext Classical.choice Quot.sound
Moo.C62_errors propext Classical.choice Quot.sound
Moo.C63_py_hypervolume propext Classical.choice Quot.sound
Moo.C63_py_hypervolume_error propext Classical.choice Quot.sound
Moo.C63_py_object_eq_function propext Classical.choice Quot.sound
Moo.C63_py_one_objective_undefined propext Classical.choice Quot.sound
Moo.C63_r_hypervolume propext Classical.choice Quot.sound
Moo.C63_r_hv_contributions propext Classical.choice Quot.sound
Moo.C63_r_errors propext Classical.choice Quot.sound
Moo.C64_data_passed propext Classical.choice Quot.sound
Moo.C64_mirror_unchanged_partial propext Classical.choice Quot.sound
Moo.C64_view_changed propext Classical.choice Quot.sound
Moo.C64_false_view propext
Moo.C64_normalise_unchanged propext Quot.sound
Moo.C64_r_whv_rect_unchanged propext Classical.choice Quot.sound
Moo.C64_py_whv_rect_unchanged_partial propext Classical.choice Quot.sound
Moo.C64_whv_data_perm propext Quot.sound
Moo.C64_false_whv_rect propext
Moo.C64_false_whv_rect_order propext
Moo.C65_polygons propext Classical.choice Quot.sound
Moo.C65_odd_runs_abort propext Quot.sound
Moo.C66_hv_shift propext Classical.choice Quot.sound
Moo.C66_hv_shift_eq_hv propext Classical.choice Quot.sound
Moo.C67_hv propext Classical.choice Quot.sound
Moo.C67_hv_constant_objective propext Classical.choice Quot.sound
Moo.C67_hv_unreadable propext Classical.choice Quot.sound
Moo.C67_hv_unreadable_default propext Classical.choice Quot.sound
Moo.C67_hv_bad_reference propext Classical.choice Quot.sound
Moo.C67_hv_one_objective_undefined propext Classical.choice Quot.sound
Moo.C68_epsilon_additive propext Classical.choice Quot.sound
Moo.C68_epsilon_mult propext Classical.choice Quot.sound
Moo.C68_epsilon_mult_reference propext Classical.choice Quot.sound
Moo.C68_igd propext Classical.choice Quot.sound
Moo.C68_no_reference propext
Moo.C68_bad_obj propext Quot.sound
Moo.C68_all_ignored propext Classical.choice Quot.sound
Moo.C68_reference_unreadable propext Classical.choice Quot.sound
Moo.C68_reference_sets_undefined propext Classical.choice Quot.sound
Moo.C68_long_obj_undefined propext Classical.choice Quot.sound
Moo.C68_short_obj_misread propext Classical.choice Quot.sound
Moo.C68_ignored_objective propext Classical.choice Quot.sound
Moo.C69_output_partial propext Classical.choice Quot.sound
Moo.C69_no_check propext Classical.choice Quot.sound
Moo.C69_status_partial propext Classical.choice Quot.sound
Moo.C69_status_two_objectives propext Classical.choice Quot.sound
Moo.C69_read_back propext Classical.choice Quot.sound
Moo.C69_out_of_bounds propext Classical.choice Quot.sound
Moo.C69_bad_option propext Classical.choice Quot.sound
Moo.C69_bounds_order propext Classical.choice Quot.sound
Moo.C69_unreadable propext Classical.choice Quot.sound
Moo.C69_unreadable_bounds propext Classical.choice Quot.sound
Moo.C69_unreadable_given propext Classical.choice Quot.sound
Moo.C69_agree_min_undefined propext Classical.choice Quot.sound
Moo.C69_false_status propext Classical.choice Quot.sound
Moo.C69_agree_max_keeps_dominated propext Classical.choice Quot.sound
Moo.C69_short_bounds propext Classical.choice Quot.sound
Moo.C70_rank_partial propext Classical.choice Quot.sound
Moo.C70_order_partial propext Classical.choice Quot.sound
Moo.C70_directions_ignored propext Classical.choice Quot.sound
Moo.C70_contribution_range propext Classical.choice Quot.sound
Moo.C70_order_range propext Classical.choice Quot.sound
Moo.C70_order_respects_dominance propext Classical.choice Quot.sound
Moo.C70_repeated_points propext Classical.choice Quot.sound
Moo.C70_contribution_pos propext Classical.choice Quot.sound
Moo.C70_unreadable propext Classical.choice Quot.sound
Moo.C70_two_files propext Classical.choice Quot.sound
Moo.C70_bad_option propext Classical.choice Quot.sound
Moo.C70_one_objective_undefined propext Classical.choice Quot.sound
Moo.C70_false_directions propext Classical.choice Quot.sound
Moo.C71_counts_partial propext Classical.choice Quot.sound
Moo.C71_no_check propext Classical.choice Quot.sound
Moo.C71_rejects propext Classical.choice Quot.sound
Moo.C71_few_files propext Quot.sound
Moo.C71_unreadable propext Classical.choice Quot.sound
Moo.C71_bad_option propext Quot.sound
Moo.C71_pairs_le propext Classical.choice Quot.sound
Moo.C71_all_pairs propext Classical.choice Quot.sound
Moo.C71_all_pairs_trans propext Classical.choice Quot.sound
Moo.C71_false_single propext Classical.choice Quot.sound
Moo.C71_false_ignored propext Classical.choice Quot.sound
Moo.C71_no_check_abort propext Classical.choice Quot.sound
Moo.C72_eaf_partial propext Classical.choice Quot.sound
Moo.C72_level_error propext Classical.choice Quot.sound
Moo.C72_argument_error propext Classical.choice Quot.sound
Moo.C72_file_error propext Classical.choice Quot.sound
Moo.C72_objectives_error propext Classical.choice Quot.sound
Moo.C72_no_data_error propext Classical.choice Quot.sound
Moo.C72_no_data_undefined propext Classical.choice Quot.sound
Moo.C72_overflow propext Classical.choice Quot.sound
Moo.C72_false_single_run propext Classical.choice Quot.sound
Moo.C72_false_same_file propext Classical.choice Quot.sound
Moo.C73_py_indicator_partial propext Classical.choice Quot.sound
Moo.C73_py_error propext Classical.choice Quot.sound
Moo.C73_py_epsilon_mult_exit propext Classical.choice Quot.sound
Moo.C73_py_empty propext Classical.choice Quot.sound
Moo.C73_false_small_exponent propext Classical.choice Quot.sound
Moo.C73_fractional_exponent propext Classical.choice Quot.sound
Moo.C73_py_exponent_error propext Classical.choice Quot.sound
Moo.C73_r_indicator propext Classical.choice Quot.sound
Moo.C73_r_error propext Classical.choice Quot.sound
Moo.C73_py_r_agree propext Classical.choice Quot.sound
Moo.C74_py_is_nondominated propext Classical.choice Quot.sound
Moo.C74_py_filter_dominated propext Classical.choice Quot.sound
Moo.C74_false_filter_list propext Quot.sound
Moo.C74_py_filter_idempotent propext Classical.choice Quot.sound
Moo.C74_py_error propext Classical.choice Quot.sound
Moo.C74_py_pareto_rank propext Classical.choice Quot.sound
Moo.C74_py_pareto_rank_empty propext Classical.choice Quot.sound
Moo.C74_py_normalise propext Classical.choice Quot.sound
Moo.C74_py_normalise_error propext Classical.choice Quot.sound
Moo.C74_normalise_default propext Classical.choice Quot.sound
Moo.C74_r_filter_dominated propext Classical.choice Quot.sound
Moo.C74_r_pareto_rank propext Classical.choice Quot.sound
Moo.C74_r_error propext Quot.sound
Moo.C74_r_normalise propext Classical.choice Quot.sound
Moo.C75_py_whv_rect_partial propext Classical.choice Quot.sound
Moo.C75_py_total_whv_rect_partial propext Classical.choice Quot.sound
Moo.C75_py_error propext Classical.choice Quot.sound
Moo.C75_false_maximise_list propext Classical.choice Quot.sound
Moo.C75_py_total_error propext Classical.choice Quot.sound
Moo.C75_r_whv_rect_partial propext Classical.choice Quot.sound
Moo.C75_r_total_whv_rect_partial propext Classical.choice Quot.sound
Moo.C75_r_error propext Classical.choice Quot.sound
Moo.C75_r_total_no_value propext Classical.choice Quot.sound
Moo.C75_py_total_pareto_partial propext Classical.choice Quot.sound
Moo.C75_choose_eafdiff_rows propext Classical.choice Quot.sound
Moo.C75_choose_whv_rect_partial propext Classical.choice Quot.sound
Moo.C75_false_early_stop propext Classical.choice Quot.sound
Moo.C76_py_vorobT_partial propext Classical.choice Quot.sound
Moo.C76_py_vorobT_one_set propext Classical.choice Quot.sound
Moo.C76_py_vorobT_errors propext Classical.choice Quot.sound
Moo.C76_py_vorobDev propext Classical.choice Quot.sound
Moo.C76_py_vorobDev_default_partial propext Classical.choice Quot.sound
Moo.C76_r_vorobT_partial propext Classical.choice Quot.sound
Moo.C76_r_vorobDev propext Classical.choice Quot.sound
Moo.C76_r_vorobDev_default_partial propext Classical.choice Quot.sound
Moo.C76_four_objectives propext Classical.choice Quot.sound
Moo.C76_false_r_single_point propext Classical.choice Quot.sound
Moo.C76_false_r_scalar_reference propext Classical.choice Quot.sound
Moo.C77_accepted propext Classical.choice Quot.sound
Moo.C77_rbind propext Classical.choice Quot.sound
Moo.C78_round_trip propext Classical.choice Quot.sound
Moo.C78_identity propext Classical.choice Quot.sound
Moo.C78_empty propext
Moo.C79_eaf propext Classical.choice Quot.sound
Moo.C79_eaf_as_list propext Classical.choice Quot.sound
Moo.C79_attsurf2df propext Quot.sound
Moo.C79_eaf_values propext Classical.choice Quot.sound
Moo.C79_groups propext Classical.choice Quot.sound
Moo.C79_groups_as_list propext Classical.choice Quot.sound
Moo.C79_groups_given propext Classical.choice Quot.sound
Moo.C79_false_groups_default propext Classical.choice Quot.sound
Moo.C80_tree_same_value propext Classical.choice Quot.sound
Moo.C80_tree_is_volume propext Classical.choice Quot.sound
Moo.C80_update_keeps_tree propext Classical.choice Quot.sound
Moo.C80_tree_cleared propext Classical.choice Quot.sound
Moo.C80_counterexample_with_tree propext Classical.choice Quot.sound
Moo.C81_eaf3d_tree_same propext Classical.choice Quot.sound
Moo.C81_eaf3d_tree_surfaces propext Classical.choice Quot.sound
Moo.C82_shift_tree_same propext Classical.choice Quot.sound
Moo.C82_shift_tree_is_volume propext Classical.choice Quot.sound
Moo.C82_shift_tree_eq_hv_tree propext Classical.choice Quot.sound
Moo.C83_affine propext Classical.choice Quot.sound
Moo.C83_permute_objectives propext Classical.choice Quot.sound
Moo.C83_union propext Classical.choice Quot.sound
Moo.C83_diminishing_returns propext Classical.choice Quot.sound
Moo.C83_reference propext Classical.choice Quot.sound
Moo.C83_contributions_sum propext Classical.choice Quot.sound
Moo.C84_add_triangle propext Classical.choice Quot.sound
Moo.C84_add_union propext Classical.choice Quot.sound
Moo.C84_add_more_points propext Classical.choice Quot.sound
Moo.C84_add_self propext Classical.choice Quot.sound
Moo.C84_mult_log propext Classical.choice Quot.sound
Moo.C84_mult_triangle propext Classical.choice Quot.sound
Moo.C84_mult_self propext Classical.choice Quot.sound
Moo.C84_igd_plus_le_igd propext Classical.choice Quot.sound
Moo.C84_igd_plus_le_epsilon propext Classical.choice Quot.sound
Moo.C84_igd_le_hausdorff propext Classical.choice Quot.sound
Moo.C85_same_order propext Classical.choice Quot.sound
Moo.C85_same_order_one_copy propext Classical.choice Quot.sound
Moo.C85_rank_one propext Classical.choice Quot.sound
Moo.C85_permute_rows propext Classical.choice Quot.sound
Moo.C86_eaf_change_of_units propext Classical.choice Quot.sound
Moo.C86_eaf_labelled_points propext Classical.choice Quot.sound
Moo.C86_eaf_first_surface propext Classical.choice Quot.sound
Moo.C86_eafdiff_swap propext Classical.choice Quot.sound
Moo.C86_eafdiff_self propext Classical.choice Quot.sound
Moo.C86_eafdiff_bound propext Classical.choice Quot.sound
Moo.C87_polygons_partial propext Classical.choice Quot.sound
Moo.C87_all_levels_partial propext Classical.choice Quot.sound
Moo.C87_false_odd_runs propext Classical.choice Quot.sound
Moo.C87_false_level_order propext Classical.choice Quot.sound
Moo.C87_false_level_gap propext Classical.choice Quot.sound
Moo.C88_memory_safe propext Classical.choice Quot.sound
Moo.C88_independent_of_memory propext Classical.choice Quot.sound
Moo.C88_false_minus_infinity propext Classical.choice Quot.sound
Moo.C89_hv_exact_on_grid propext Classical.choice Quot.sound
Moo.C89_hv_exact_integers propext Classical.choice Quot.sound
Moo.C90_hv3d_float_error propext Classical.choice Quot.sound
Moo.C90_hv3d_float_error_simple propext Classical.choice Quot.sound
Moo.C90_dominated_point_lowers_value propext Classical.choice Quot.sound
Moo.C91_contributions_exact_on_grid propext Classical.choice Quot.sound
Moo.C91_contributions_exact_integers propext Classical.choice Quot.sound
Moo.C91_contribution3d_error propext Classical.choice Quot.sound
Moo.C91_contribution2d_dominated propext Classical.choice Quot.sound
Moo.C91_assertion_fails_3d propext Classical.choice Quot.sound
Moo.C91_assertion_fails_2d propext Classical.choice Quot.sound
Moo.C92_hv4d_value_lost propext Classical.choice Quot.sound
Moo.C92_added_point_erases_value propext Classical.choice Quot.sound
Moo.C92_contribution_negative propext Classical.choice Quot.sound
Moo.C92_points_distinct_doubles propext Classical.choice Quot.sound
Moo.C93_hv propext Classical.choice Quot.sound
Moo.C93_hv_append propext Classical.choice Quot.sound
Moo.C93_hv_args propext Classical.choice Quot.sound
Moo.C93_epsilon propext Classical.choice Quot.sound
Moo.C93_epsilon_append propext Classical.choice Quot.sound
Moo.C93_epsilon_args propext Classical.choice Quot.sound
Moo.C93_igd propext Classical.choice Quot.sound
Moo.C93_igd_append propext Classical.choice Quot.sound
Moo.C93_igd_args propext Classical.choice Quot.sound
Moo.C93_nondominated propext Classical.choice Quot.sound
Moo.C93_nondominated_append propext Classical.choice Quot.sound
Moo.C93_nondominated_args propext Classical.choice Quot.sound
Moo.C93_ndsort propext Classical.choice Quot.sound
Moo.C93_ndsort_append propext Classical.choice Quot.sound
Moo.C93_ndsort_args propext Classical.choice Quot.sound
Moo.C93_dominatedsets propext Classical.choice Quot.sound
Moo.C93_dominatedsets_append propext Classical.choice Quot.sound
Moo.C93_dominatedsets_args propext Classical.choice Quot.sound
Moo.C93_eaf propext Classical.choice Quot.sound
Moo.C93_eaf_append propext Classical.choice Quot.sound
Moo.C93_eaf_args propext Classical.choice Quot.sound
Moo.C93_hv_no_abort propext Classical.choice Quot.sound
Moo.C93_nondominated_no_abort propext Classical.choice Quot.sound
Moo.C93_ndsort_no_abort propext Classical.choice Quot.sound
Moo.C93_dominatedsets_no_abort propext Classical.choice Quot.sound
Moo.C93_eaf_no_abort propext Classical.choice Quot.sound
Moo.C93_epsilon_abort_only propext Classical.choice Quot.sound
Moo.C93_igd_abort_only propext Classical.choice Quot.sound
Moo.C93_epsilon_u_aborts propext Classical.choice Quot.sound
Moo.C93_igd_u_m_abort propext Classical.choice Quot.sound
Moo.C93_igd_p_rejected propext Classical.choice Quot.sound
Moo.C93_nondominated_m_L_rejected propext Classical.choice Quot.sound
Moo.C93_usage_has propext Classical.choice Quot.sound
Moo.C94_hv_dash propext Classical.choice Quot.sound
Moo.C94_nondominated_clobber propext Classical.choice Quot.sound
Moo.C94_epsilon propext Classical.choice Quot.sound
Moo.C94_epsilon_stdin propext Classical.choice Quot.sound
Moo.C94_epsilon_help propext Classical.choice Quot.sound
Moo.C94_epsilon_no_reference_file propext Classical.choice Quot.sound
Moo.C94_epsilon_frame propext Classical.choice Quot.sound
Moo.C94_epsilon_reads propext Classical.choice Quot.sound
Moo.C94_epsilon_missing propext Classical.choice Quot.sound
Moo.C94_igd propext Classical.choice Quot.sound
Moo.C94_igd_stdin propext Classical.choice Quot.sound
Moo.C94_igd_help propext Classical.choice Quot.sound
Moo.C94_igd_no_reference_file propext Classical.choice Quot.sound
Moo.C94_igd_frame propext Classical.choice Quot.sound
Moo.C94_igd_reads propext Classical.choice Quot.sound
Moo.C94_igd_missing propext Classical.choice Quot.sound
Moo.C94_hv propext Classical.choice Quot.sound
Moo.C94_hv_stdin propext Classical.choice Quot.sound
Moo.C94_hv_help propext Classical.choice Quot.sound
Moo.C94_hv_bad_reference propext Classical.choice Quot.sound
Moo.C94_hv_invalid propext Classical.choice Quot.sound
Moo.C94_hv_frame propext Classical.choice Quot.sound
Moo.C94_hv_reads propext Classical.choice Quot.sound
Moo.C94_hv_missing propext Classical.choice Quot.sound
Moo.C94_nondominated propext Classical.choice Quot.sound
Moo.C94_nondominated_stdin propext Classical.choice Quot.sound
Moo.C94_nondominated_help propext Classical.choice Quot.sound
Moo.C94_nondominated_frame propext Classical.choice Quot.sound
Moo.C94_nondominated_check propext Classical.choice Quot.sound
Moo.C94_nondominated_reads propext Classical.choice Quot.sound
Moo.C94_nondominated_missing propext Classical.choice Quot.sound
Moo.C95_eaf3d_memory propext Classical.choice Quot.sound
Moo.C95_eaf3d_leaks propext Classical.choice Quot.sound
Moo.C96_search_closest propext Classical.choice Quot.sound
Moo.C96_search propext Classical.choice Quot.sound
Moo.C96_insert_after propext Classical.choice Quot.sound
Moo.C96_insert_before propext Classical.choice Quot.sound
Moo.C96_insert_node propext Classical.choice Quot.sound
Moo.C96_unlink_node propext Classical.choice Quot.sound
Moo.C96_delete propext Classical.choice Quot.sound
Moo.C97_two_objectives propext Classical.choice Quot.sound
Moo.C97_steps propext Classical.choice Quot.sound
Moo.C97_three_objectives propext Classical.choice Quot.sound
Moo.C97_big_O propext Classical.choice Quot.sound
Moo.C98_is_nondominated_2d propext Quot.sound
Moo.C98_is_nondominated propext Quot.sound
Moo.C98_pareto_rank_2d propext Classical.choice Quot.sound
Moo.C98_pareto_rank propext Classical.choice Quot.sound
Moo.C98_epsilon_additive propext Quot.sound
Moo.C98_epsilon_mult propext Quot.sound
Moo.C99_hv_no_overflow propext Classical.choice Quot.sound
Moo.C99_contributions_no_overflow propext Classical.choice Quot.sound
Moo.C99_hv_exact_integers propext Classical.choice Quot.sound
Moo.C99_epsilon_additive_no_overflow propext Classical.choice Quot.sound
Moo.C99_epsilon_mult_no_overflow propext Classical.choice Quot.sound
Moo.C99_igd_no_overflow propext Classical.choice Quot.sound
Moo.C99_normalise_no_overflow propext Classical.choice Quot.sound
Moo.C99_percentile_no_overflow propext Classical.choice Quot.sound
Moo.C99_overflow_reached propext Classical.choice Quot.sound
Moo.C100_mex_hypervolume propext Classical.choice Quot.sound
Moo.C100_mex_default_reference propext Classical.choice Quot.sound
Moo.C100_mex_single_point propext Classical.choice Quot.sound
Moo.C100_mex_help propext Classical.choice Quot.sound
Moo.C100_mex_errors propext Classical.choice Quot.sound
Moo.C100_mex_empty_undefined propext Classical.choice Quot.sound
Moo.C100_mex_one_objective_undefined propext Classical.choice Quot.sound
Moo.C100_mex_class_undefined propext Classical.choice Quot.sound
Moo.C101_point_value propext Classical.choice Quot.sound
Moo.C101_point_one_number propext Classical.choice Quot.sound
Moo.C101_point_mean propext Classical.choice Quot.sound
Moo.C101_point_consistent propext Classical.choice Quot.sound
Moo.C101_bivariate_normal_fill propext Classical.choice Quot.sound
Moo.C101_false_point_weight propext Classical.choice Quot.sound
Moo.C102_eaf2d_time propext Classical.choice Quot.sound
Moo.C102_reallocs_le propext Classical.choice Quot.sound
Moo.C102_reallocs_ge propext Classical.choice Quot.sound
Moo.C102_false_log_reallocs propext Classical.choice Quot.sound
Moo.C102_no_realloc propext Quot.sound
Moo.C103_is_nondominated_safe propext Classical.choice Quot.sound
Moo.C103_find_dominated_safe propext Classical.choice Quot.sound
Moo.C103_pareto_rank_safe propext Classical.choice Quot.sound
Moo.C103_pareto_rank_asserts propext Classical.choice Quot.sound
Moo.C103_same_filter propext Classical.choice Quot.sound
Moo.C103_same_rank propext Classical.choice Quot.sound
Moo.C103_false_empty propext
Moo.C103_false_nan_assertion propext
Moo.C103_false_ignored propext
Moo.C104_filter_ignores_nan propext Classical.choice Quot.sound
Moo.C104_rank_ignores_nan propext Classical.choice Quot.sound
Moo.C104_false_2d_filter propext
Moo.C104_false_2d_rank propext
Moo.C105_additive_finite propext Quot.sound
Moo.C105_additive_nan_iff propext Classical.choice Quot.sound
Moo.C105_additive_nan_cases propext Classical.choice Quot.sound
Moo.C105_additive_nan_point propext Classical.choice Quot.sound
Moo.C105_additive_nan_reference propext Classical.choice Quot.sound
Moo.C105_additive_nan_objective propext Classical.choice Quot.sound
Moo.C105_mult_error_iff propext Classical.choice Quot.sound
Moo.C105_mult_nan_iff propext Classical.choice Quot.sound
Moo.C105_mult_nan_point propext Classical.choice Quot.sound
Moo.C105_mult_nan_reference propext Classical.choice Quot.sound
Moo.C105_distance_finite propext Classical.choice Quot.sound
Moo.C105_distance_never_nan propext Classical.choice Quot.sound
Moo.C105_distance_nan_infinite propext Classical.choice Quot.sound
Moo.C105_distance_infinite propext Classical.choice Quot.sound
Moo.C105_distance_nan_ignored propext Classical.choice Quot.sound
Moo.C105_igd_plus_nan_good propext Classical.choice Quot.sound
Moo.C105_igd_plus_all_nan propext Classical.choice Quot.sound
Moo.C105_false_order propext Classical.choice Quot.sound
Moo.C105_false_dominance propext Classical.choice Quot.sound
Moo.C106_standard_normal propext Classical.choice Quot.sound
Moo.C106_terminates propext Classical.choice Quot.sound
Moo.C106_fuel propext Classical.choice Quot.sound
Moo.C106_independent propext Classical.choice Quot.sound
Moo.C106_table_exists propext Classical.choice Quot.sound
Moo.C107_whv_rect_float_error propext Classical.choice Quot.sound
Moo.C107_whv_rect_float_nonneg propext Classical.choice Quot.sound
Moo.C107_whv_rect_float_exact propext Classical.choice Quot.sound
Moo.C108_eaf2d_safe propext Classical.choice Quot.sound
Moo.C108_eaf2d_asserts propext Classical.choice Quot.sound
Moo.C108_no_nan propext Classical.choice Quot.sound
Moo.C108_false_empty propext Quot.sound
Moo.C108_false_nan_assertion propext
Moo.C108_false_nan_loses_point propext
Moo.C109_gc_safe propext Classical.choice Quot.sound
Moo.C109_no_leak_on_error propext Classical.choice Quot.sound
Moo.C109_returns propext Classical.choice Quot.sound
Moo.C109_executions_exist propext Quot.sound
Moo.C109_type_error propext Quot.sound
Moo.C109_unprotected_fails propext Quot.sound
Moo.C109_false_leak_on_error propext
Moo.C109_false_leak_hausdorff propext
Moo.C110_standard_normal propext Classical.choice Quot.sound
Moo.C110_terminates propext Classical.choice Quot.sound
Moo.C110_independent propext Classical.choice Quot.sound
Moo.zigTab_near propext Classical.choice Quot.sound
Moo.C111_mean propext Classical.choice Quot.sound
Moo.C111_consistent propext Classical.choice Quot.sound
Moo.C111_returns propext Classical.choice Quot.sound
Moo.C112_words propext Classical.choice Quot.sound
Moo.C112_random propext Classical.choice Quot.sound
Moo.C112_limit propext Classical.choice Quot.sound
Moo.C112_whv_hype_mean propext Classical.choice Quot.sound
Moo.mtKey_card propext Classical.choice Quot.sound
Moo.C113_hv propext Classical.choice Quot.sound
Moo.C113_hv2d propext Classical.choice Quot.sound
Moo.C113_row_index propext Classical.choice Quot.sound
Moo.C113_row_start propext Classical.choice Quot.sound
Moo.C113_shift_index propext Classical.choice Quot.sound
Moo.C113_matrix_alloc propext Classical.choice Quot.sound
Moo.C113_eaf_rows propext Classical.choice Quot.sound
Moo.C113_eaf_matrix propext Classical.choice Quot.sound
Moo.C113_eaf_matrix_R propext Classical.choice Quot.sound
Moo.C113_eaf2d propext Classical.choice Quot.sound
Moo.C113_read propext Classical.choice Quot.sound
Moo.C114_normalise propext Classical.choice Quot.sound
Moo.C114_agree_normalise propext Classical.choice Quot.sound
Moo.C114_normalise_nan propext Classical.choice Quot.sound
Moo.C114_preprocess propext Classical.choice Quot.sound
Moo.C114_whv_rect_safe propext Classical.choice Quot.sound
Moo.C114_estimate_whv propext Classical.choice Quot.sound
Moo.C114_whv_hype_safe propext Classical.choice Quot.sound
Moo.C114_same_normalise propext Classical.choice Quot.sound
Moo.C114_same_whv_rect propext Classical.choice Quot.sound
Moo.C114_whv_rect_value propext Classical.choice Quot.sound
Moo.C114_same_whv_hype propext Classical.choice Quot.sound
Moo.C114_hype_nan_point propext Classical.choice Quot.sound
Moo.C114_whv_nan_aborts propext Classical.choice Quot.sound
Moo.C114_false_nan_ignored propext Classical.choice Quot.sound
Moo.C114_false_nan_corner propext Classical.choice Quot.sound
Moo.C115_hv2d_safe propext Classical.choice Quot.sound
Moo.C115_hv3d_safe propext Classical.choice Quot.sound
Moo.C115_hv3d_safe_list propext Classical.choice Quot.sound
Moo.C115_contributions propext Classical.choice Quot.sound
Moo.C115_one_point_diffs propext Classical.choice Quot.sound
Moo.C115_filter propext Classical.choice Quot.sound
Moo.C115_one_point propext Classical.choice Quot.sound
Moo.C115_zero propext Classical.choice Quot.sound
Moo.C115_nan_ref propext Classical.choice Quot.sound
Moo.C115_nan_objective propext Classical.choice Quot.sound
Moo.C115_nan_ref_2d propext
Moo.C115_nan_point_2d propext
Moo.C115_same_hv2d propext
Moo.C115_same_hv propext Quot.sound
Moo.C115_same_volume propext Classical.choice Quot.sound
Moo.C115_same_safe propext Classical.choice Quot.sound
Moo.C115_contrib_nan propext Classical.choice Quot.sound
Moo.C115_false_hv2d_nan propext Classical.choice Quot.sound
Moo.C115_false_hv3d_nan propext Classical.choice Quot.sound
Moo.C115_false_hv4d_nan propext Classical.choice Quot.sound
Moo.C116_rows propext Classical.choice Quot.sound
Moo.C116_safe propext Classical.choice Quot.sound
Moo.C116_two_objectives propext Classical.choice Quot.sound
Moo.C116_count propext Classical.choice Quot.sound
Moo.C116_nan propext Classical.choice Quot.sound
Moo.C116_false_antichain propext Classical.choice Quot.sound
Moo.C117_elapsed propext Classical.choice Quot.sound
Moo.C117_difference propext Classical.choice Quot.sound
Moo.C117_nonneg propext Classical.choice Quot.sound
Moo.C117_at_most propext Classical.choice Quot.sound
Moo.C117_false_stopped propext Classical.choice Quot.sound
Moo.C117_false_continued_twice propext Classical.choice Quot.sound
Moo.C118_eaf propext Classical.choice Quot.sound
Moo.C118_eaf_done propext Classical.choice Quot.sound
Moo.C118_eaf_polygons propext Classical.choice Quot.sound
Moo.C118_eaf_surfaces propext Classical.choice Quot.sound
Moo.C118_eaf_missing propext Classical.choice Quot.sound
Moo.C118_eaf_argument propext Classical.choice Quot.sound
Moo.C118_eaf_bad_file propext Classical.choice Quot.sound
Moo.C118_eaf_emptied propext Classical.choice Quot.sound
Moo.C118_eaf_emptied_example propext Classical.choice Quot.sound
Moo.C118_eaf_frame propext Classical.choice Quot.sound
Moo.C118_ndsort propext Classical.choice Quot.sound
Moo.C118_ndsort_ranks propext Classical.choice Quot.sound
Moo.C118_ndsort_orders propext Classical.choice Quot.sound
Moo.C118_ndsort_options propext Classical.choice Quot.sound
Moo.C118_ndsort_missing propext Classical.choice Quot.sound
Moo.C118_ndsort_frame propext Classical.choice Quot.sound
Moo.C118_dominatedsets propext Classical.choice Quot.sound
Moo.C118_dominatedsets_tables propext Classical.choice Quot.sound
Moo.C118_dominatedsets_options propext Classical.choice Quot.sound
Moo.C118_dominatedsets_missing propext Classical.choice Quot.sound
Moo.C118_dominatedsets_frame propext Classical.choice Quot.sound
Moo.C119_words propext Classical.choice Quot.sound
Moo.C119_empty propext Classical.choice Quot.sound
Moo.C119_never_stuck propext Classical.choice Quot.sound
Moo.C119_different_arrays propext Classical.choice Quot.sound
Moo.C119_false_lengths propext Classical.choice Quot.sound
Moo.C119_false_long propext Classical.choice Quot.sound
Moo.C120_range propext Classical.choice Quot.sound
Moo.C120_exact propext Classical.choice Quot.sound
Moo.C120_false_open propext Classical.choice Quot.sound
Moo.C121_reports propext Classical.choice Quot.sound
Moo.C121_symmetric propext Classical.choice Quot.sound
Moo.C121_rectangles propext Classical.choice Quot.sound
Moo.C121_check propext Classical.choice Quot.sound
Moo.C121_false_notch propext Classical.choice Quot.sound
