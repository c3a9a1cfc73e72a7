# Axioms of the theorems

Generated by `tools/axioms.py` with `#print axioms` from the compiled modules: 1079 theorems.
Theorems with an axiom other than `propext`, `Classical.choice`, `Quot.sound`: none.

## no axioms (3)

C53_empty, C59_rename_ignored, C82_distinct_names

## propext (24)

C15_empty, C15_keys_of_first, C18_reader_sees_old_or_complete, C18_no_temporary_left, C18_exception_only_cleans_up, C18_can_always_complete, C18_failed_move_leaves_temporary, C19_no_setup_fn, C19_trace, C19_outputs, C20_result_name_collision, C21_no_statistics, C49_preparation_error, C49_first_step_fails, C51_first, C73_name_collision, C79_shared_loader, C79_preparation_error, C83_both_or_none, C83_config, C83_baseline_configs, C84_level_menu, C89_prepared, C103_statistic

## Quot.sound, propext (72)

C02_len, C04_rejects_valueError, C15_map_one, C15_functor, C15_zip, C18_last_completed_wins, C18_returned, C18_other_files_untouched, C18_shared_temporary_exposes_partial, C19_setup_until_success, C19_setup_at_most_once, C19_workers_agree, C20_name_collision, C21_statistic, C21_metric, C21_metric_total, C28_category, C28_category_nan, C28_score_nan, C33_monotone_fin, C37_relu, C38_which, C38_metric, C38_name, C41_latitude, C49_history, C49_order_of_calls, C49_order, C49_no_options, C49_mask_subset, C49_latency_options, C50_tolerance, C50_tolerance_end, C50_dropna, C51_one_per_station, C53_order, C53_single, C53_nested, C53_variables, C53_dataset, C59_names, C59_raw, C63_stride, C72_one_bin, C72_bins_disjoint, C73_zarr_chunks, C76_choose, C76_choose_missing, C76_init, C79_history, C79_no_times, C80_single_variable, C82_display, C83_file_name, C89_alone, C89_after_first_call, C89_single_step, C89_applied_twice, C89_raw, C92_wrapped, C92_subselect, C101_subselect_ambiguous, C102_wrapped, C103_per_variable, C103_subselect, C103_wrapped, C104_wrapped, C105_chunks, C105_offsets, C105_available, C105_variables, C109_infinite

## Classical.choice, propext (1)

C15_same_shape_table

## Classical.choice, Quot.sound, propext (979)

C01_cover, C01_exactly_once, C01_cover_slice, C02_getItem, C03_offsets, C03_offsets_injective, C03_slice_none_raises, C03_slice_zero_ok, C04_accepts_iff, C04_chunk_sizes, C04_size_used, C05_labels, C05_value, C05_order, C05_grouping, C05_grouping_fails_for_differing_dims, C05_zero_along_dims, C06_grouping, C06_order, C06_zero_neutral, C06_zero_add, C06_keys_of_first_decide, C07_chunked_equals_whole, C07_grid_of_chunks, C07_bins_varying_per_chunk, C07_without_chunk_dim_counts_once_per_chunk, C08_aggregated_sums, C08_mean_statistics, C08_mean_between, C08_mean_const, C08_mean_weight_scale, C08_mean_linear, C09_masked_values_are_irrelevant, C09_unmasked_nan_propagates, C09_weights_finite, C09_skipna_drops_nan_cells, C10_nan_poisons_every_bin, C10_masked_out_nan_does_not_poison, C11_two_stage, C11_order, C12_variable_survives_iff, C12_state_keys, C12_duplicate_bin_names, C12_duplicate_bin_names_unreduced, C13_array, C13_partition_bins_add_up, C14_slash, C14_data_tree_roundtrip, C14_dataset_roundtrip, C14_separator_in_names_collides, C14_underscore_separator_fails, C14_long_separator_ambiguous, C14_sequences_rejected, C16_any_schedule, C16_schedules_agree, C16_runs_exist, C17_pipeline_equals_direct, C17_pipeline_bins_varying, C17_run_exists, C17_empty_result_becomes_scalar, C17_interleaved_times_fail, C18_temporary_names_distinct, C18_temporary_paths, C18_completes, C20_together_iff_alone, C20_singleton, C20_computed_once, C20_failure, C20_result_names, C22_bias_value, C22_mae_value, C22_mse_value, C22_rmse_value, C22_bias_le_mae_le_rmse, C22_perfect, C22_zero_only_if_perfect, C23_value, C23_zero_activity, C23_range, C23_perfect, C23_rescale, C23_symmetric, C23_consistent, C23_mask_mismatch, C24_construct, C24_statistic, C24_missing, C24_pointwise, C24_rmse_sq, C25_pointwise, C25_finite, C25_antitone, C25_mean, C26_nan, C26_finite, C26_exactly_one, C26_means, C27_csi_value, C27_accuracy_value, C27_recall_value, C27_far_value, C27_precision_value, C27_f1_value, C27_frequency_bias_value, C27_hss_value, C27_ets_value, C27_csi_range, C27_accuracy_range, C27_recall_range, C27_precision_far, C27_f1_csi, C27_f1_harmonic, C27_hss_ets, C27_perfect, C27_sedi, C28_score, C28_sign, C28_equitable, C28_nan_threshold, C28_per_variable, C28_construct, C28_constant, C28_wet_threshold, C28_wet_threshold_exists, C28_dry_fraction, C28_dry_fraction_dims, C28_cell, C29_missing_dim, C29_sum, C29_zero_iff, C29_symmetric, C29_step, C29_nan_scores_zero, C29_mean, C30_pairwise, C30_skipna, C30_single_member, C30_sorted, C30_nan, C30_errors, C30_ok, C30_shape, C31_skill, C31_spread, C31_value, C31_cell_nonneg, C31_degenerate, C31_translate, C31_scale, C31_permute, C31_integral, C31_nonneg, C31_skill_ensemble_target, C31_distance, C31_distance_integral, C31_skill_nan, C31_distance_skipna_ignored, C32_variance_pairs, C32_pairs, C32_variance, C32_variance_single, C32_unbiased, C32_unbiased_ensemble_target, C32_missing_dim, C32_rootMeanVariance, C32_unbiasedRMSE, C32_spreadSkillRatio, C33_indicator, C33_range, C33_ranks, C33_one_hot, C33_monotone, C33_permutation, C33_nan, C33_mean, C34_value, C34_at_most_one, C34_constant, C34_no_events, C34_optimal, C34_arguments, C34_ensemble_thresholds, C34_name_collision, C34_optimal_values, C34_optimal_exists, C34_repeated_threshold, C34_missing_variable, C34_nearest_order, C34_optimal_arguments, C35_unfair, C35_fair, C35_correction, C35_unfair_zero, C35_no_common_bins, C35_mean, C36_day_of_year, C36_init_lead, C36_observations, C36_cdf_value, C36_monotonicity, C36_cdf_monotone, C36_bin_labels, C36_bin_value, C36_one_hot, C36_valid_time, C37_value, C37_nan_threshold, C37_list, C37_antitone, C37_probability, C37_weibull, C37_threshold_arguments, C38_compute, C38_unique, C38_order, C38_untouched, C38_values, C38_subselect, C38_name_collision, C39_mask_layout, C39_mask_layout_raises, C39_mask_transposed, C39_window, C39_labels, C39_error, C39_identity, C39_nan, C39_edge, C39_no_wrap, C39_bounds, C39_rotate, C39_mask, C39_mask_large, C39_sizes, C40_value, C40_range, C40_symmetric, C40_fractions_nonneg, C40_mask_mismatch, C40_skipna_mismatch, C41_longitude, C41_longitude_periodic, C41_regions, C41_regions_land, C41_regions_error, C41_latitude_bins, C41_latitude_bins_cover, C41_latitude_bins_shared_edge, C41_latitude_bins_error, C41_longitude_bins, C41_longitude_bins_overlap, C41_chunks, C41_land_mask_chunk, C42_exact, C42_exact_one_hot, C42_exact_global, C42_exact_error, C42_exact_chunks, C42_intervals, C42_intervals_one_hot, C42_intervals_global, C42_intervals_error, C42_sets, C42_sets_error, C42_chunks, C42_set_arguments, C42_python_set, C43_land_sea, C43_partition, C43_nan_is_sea, C43_labels, C44_timedelta_sets, C44_timedelta, C44_timedelta_second, C44_datetime, C44_error, C44_sets, C44_from_seconds, C44_from_seconds_default, C44_from_seconds_dropped, C44_from_seconds_error, C45_cells, C45_integral, C45_reverse, C45_positive, C45_mean_one, C45_total, C45_normalization, C45_errors, C45_array, C45_latitude_chunks, C46_available, C46_loaded, C46_errors, C46_predictions, C46_no_leakage, C46_observations, C46_observations_loads, C47_freshest, C47_argmin_exists, C47_one_unavailable, C47_loaded, C48_targets, C48_targets_present, C48_targets_valid_time, C48_slices, C48_targets_no_lead, C48_climatology, C48_climatology_no_lead, C48_climatology_present, C48_persistence, C48_persistence_lead, C48_predictions, C48_predictions_slice, C48_aligned, C48_prob_climatology, C48_prob_climatology_own_year, C48_prob_climatology_day, C48_prob_climatology_floor, C48_prob_climatology_no_years, C48_slice_chunk, C49_retry_after_failure, C50_files, C50_file_names, C50_partitioned_by, C50_rows, C50_no_loss, C50_no_duplicates, C50_exact, C50_tiling, C50_slice, C50_slice_errors, C50_missing_file, C50_slice_start_sign, C50_partition_unit, C50_file_date, C50_preprocessing, C50_slice_unbounded, C51_closest, C51_loaded, C52_temperature, C52_wind, C52_not_adjusted, C52_other, C54_interval, C54_nested, C54_p_value, C54_no_spread, C54_duality, C54_significance_boundary, C54_nan, C54_single_unit, C54_methods, C54_significance_tests, C55_same_factor, C55_long_run, C55_uncorrelated, C55_geer, C55_geer_no_spread, C55_lazarus, C55_lazarus_iid, C55_spacing, C55_spacing_gaps, C55_geer_zero, C55_geer_nan, C56_interval, C56_p_value, C56_outside, C56_duality, C56_order, C56_all_nan, C56_std, C56_no_spread, C56_single_replicate, C56_cluster, C56_iid, C56_estimate, C56_counts, C56_stationary_length, C56_stationary_step, C56_stationary_range, C56_stationary_block, C56_stationary_iid, C56_resampled_mean, C56_estimate_mean, C56_nan_replicate, C56_block_length, C57_statistics, C57_values, C57_difference, C57_difference_value, C57_states, C57_paired, C57_estimates, C57_for_metrics, C57_inference_replicates, C57_inference_estimates, C57_self, C58_value, C58_mean_zero, C58_tangents, C58_weighted_mean, C58_difference, C58_linear, C58_first_order, C58_root, C59_metar, C60_linear, C60_grid_point, C60_outside, C60_affine, C60_range, C60_outside_any, C60_affine_inside, C60_extrapolates, C60_no_extrapolation, C61_wrap, C61_periodic, C61_convention, C62_box, C62_longitude_inclusive, C62_bounds, C62_dims, C62_twice, C63_positions, C63_labels, C63_one, C63_twice, C64_fraction, C64_bounds, C64_antitone, C64_errors, C65_empty, C65_altitude_empty, C65_shared_dimension, C66_unit_coord, C67_prediction_passthrough, C67_target_passthrough, C67_labels, C68_masks, C68_conflict, C69_value, C69_nan, C69_missing_dim, C69_masked_value, C69_masked_empty, C69_masked_nan, C69_formula, C70_init_lead_hour, C70_init_lead_day, C70_init_lead_time, C70_valid_time, C70_no_times, C70_missing, C71_covered, C71_covered_range, C71_covered_wider, C71_covered_nan, C71_covered_no_ensemble, C71_confident, C71_confident_fin, C71_confident_missing, C71_jaccard, C71_jaccard_range, C71_jaccard_points, C71_jaccard_nan, C71_distant, C71_covered_fraction, C71_confident_fraction, C71_distant_fraction, C71_value, C71_not_joint, C71_unweighted_any, C71_chunk_count, C71_chunk_dependent, C72_value, C72_empty_bin, C72_range, C73_any_order, C73_value, C73_run_exists, C73_template, C73_refused, C73_slice_raises, C73_no_time_dims, C74_error, C74_absolute_error, C74_squared_error, C74_passthrough, C74_error_exceedance, C74_contingency, C74_rps, C74_ensemble_variance, C74_unbiased_mse, C74_ensemble_averaged, C74_ensemble_error_exceedance, C74_crps_skill, C74_crps_spread, C74_rank_histogram, C74_align, C74_anomalies, C74_opportunism, C74_wasserstein, C74_relative_intensity, C74_ensemble_rps, C74_all_statistics, C74_load_predictions, C74_load_targets, C74_load_climatology, C74_load_persistence, C74_loaders, C74_chunk_statistics, C74_pipeline, C74_mask_conflict, C74_continuous_to_binary, C74_ensemble_mean, C74_weibull, C74_relu, C74_shift, C74_continuous_to_cdf, C74_continuous_to_bins, C74_inline, C74_wrapped, C74_wrap_all, C74_subselect, C74_wind, C74_fss, C74_seeps, C75_distance, C75_labels, C75_errors, C75_value_error, C75_nan, C75_symmetric, C75_triangle, C75_zero, C75_mean, C75_single, C75_affine, C75_average, C75_chunks, C76_mapping, C76_ecmwf, C76_accepts, C76_errors, C76_sel, C76_load_forecasts, C76_load_targets, C76_without_time, C76_timedelta_without_coordinate, C76_lat_without_lon, C77_select, C77_select_ok, C77_position, C77_select_isel, C77_select_statistic, C77_rename, C77_rename_errors, C77_rename_cellwise, C77_stack_positions, C77_stack, C77_stack_mask, C77_stack_labels, C77_stack_errors, C77_stack_sum, C77_stack_cellwise, C77_wrapped_local, C77_stack_local, C77_select_local, C78_fixed, C78_linear, C78_clip, C78_clip_inside, C78_clip_decreasing, C78_clip_decreasing_result, C78_clip_wrapped, C78_clip_sparse, C78_no_clip, C79_operational, C79_no_leakage, C79_file_name_raises, C79_accepts, C79_short_forecast, C79_selected, C80_apply, C80_whole, C80_sizes, C80_not_kept, C80_last_slice, C80_last_slice_accepted, C80_cache, C80_replicates, C80_shared, C80_positions, C80_arguments, C80_one_series, C80_cells, C81_stored, C81_no_output, C81_metrics_file, C81_failure, C81_nothing_written, C81_statistic_missing, C81_runs, C81_order_dependent, C81_state_file, C82_combined, C82_source, C82_one_bad_file, C82_main, C82_no_files, C82_processes, C82_unknown_metric, C82_no_dot, C82_two_dots, C82_regions, C82_distinct_regions, C82_metrics, C82_values, C82_no_value, C83_range, C83_year, C83_2022, C83_exceptions, C83_lead_times, C83_distinct_files, C83_other_files, C83_models, C83_variables, C83_setup, C83_combinable_deterministic, C83_combinable_probabilistic, C83_arrays, C84_absolute, C84_ratio, C84_title, C84_relative, C84_alert, C84_seeps, C84_drawn, C84_level, C84_visibility, C84_spread_skill, C84_not_better, C84_new_curves, C85_times, C85_written, C85_values, C85_empty_region, C85_runs, C86_replace, C86_first_member, C86_member_dimension, C86_single_members, C86_table_exists, C86_name_without_mean, C86_public, C86_complete, C86_climatology, C86_members_past, C86_member_is_target, C87_metrics_path, C87_state_path, C87_retry, C87_same_path, C88_bias, C88_mae, C88_mse, C88_rmse, C88_ensemble_variance, C88_crps, C88_unbiased_mse, C88_unbiased_rmse, C88_root_mean_variance, C88_spread_skill, C88_wind_vector_rmse, C88_acc, C88_rank_histogram, C88_table, C88_binary, C88_cdf, C88_bins, C89_no_waiting, C89_lost_step, C90_any_schedule, C90_dot, C90_mean, C90_chunkings_agree, C90_factor, C90_double_precision, C90_relative, C90_rmse, C90_order_matters, C91_crps, C91_crps_distance, C91_variance, C91_unbiased_mse, C91_rank_histogram, C91_wasserstein, C91_error_exceedance, C91_ensemble_mean, C91_averaged, C91_sorted_spread, C91_unbiased_rmse, C91_root_mean_variance, C91_spread_skill, C92_metric, C92_table, C92_untouched, C92_failure, C92_each_member, C92_categorical, C92_ensemble, C92_economic_value, C92_wind, C92_wind_component, C92_seeps, C92_roots, C92_dataset_labels, C93_regions, C93_bands, C93_shape, C93_value, C93_scores, C93_nan, C93_chunks, C93_acc, C93_crps, C93_ensemble_mean, C93_vector, C94_mae, C94_mse, C94_error_exceedance, C94_averages, C94_bias, C94_contingency, C94_csi, C94_accuracy, C94_f1, C94_hss, C94_ets, C94_recall_precision, C94_frequency_bias, C94_fss, C94_rps, C94_rmse, C94_wasserstein, C94_unbiased_mse, C94_crps_distance, C94_wind, C94_wind_rmse, C94_acc, C95_units, C95_even, C95_constant, C95_area, C96_bias, C96_mae, C96_mse, C96_exceedance, C96_rps, C96_csi, C96_accuracy, C96_recall, C96_precision, C96_far, C96_f1, C96_frequency_bias, C96_hss, C96_ets, C96_fss, C96_wasserstein, C96_rmse, C96_wrapped, C96_thresholds, C96_ensemble_mean, C96_ensemble_exceedance, C96_crps, C96_unbiased_mse, C96_wind, C96_wind_rmse, C96_seeps, C96_seeps_inverted, C96_acc, C96_sedi, C97_mae, C97_mse, C97_rmse, C97_accuracy, C97_csi, C97_recall, C97_precision, C97_far, C97_f1, C97_hss, C97_ets, C97_crps, C97_crps_side, C97_sedi, C97_acc_nearer, C97_exceedance, C97_thresholds, C97_seeps, C97_rps, C98_mse_split, C98_unbiased_split, C98_mean_beats_members, C98_unbiased_le, C98_mae, C98_bias, C98_rmse, C98_crps, C98_same_cells, C98_spread_mask, C99_dimension, C99_bins, C99_average, C99_skill_appears, C99_crps, C99_fss, C99_root, C99_rmse, C99_spread_skill, C99_accuracy, C99_csi, C99_recall, C99_precision, C99_false_alarm, C99_f1, C99_frequency_bias, C100_select, C100_no_leakage, C100_spread_skill_no_leakage, C100_mask_conflict, C100_deterministic, C100_rmse, C100_categorical, C100_crps, C100_root_mean_variance, C100_spread_skill, C100_sedi, C100_error_exceedance, C100_anomalies, C100_wrapped, C100_subselect, C100_thresholds, C101_identify, C101_together, C101_last_wins, C101_crps_settings, C101_thresholds, C101_bin_dimension, C101_wrapped, C101_sizes_ambiguous, C101_rps_ambiguous, C101_opportunism, C101_opportunism_dimension, C102_relabel, C102_deterministic, C102_rmse, C102_passthrough, C102_categorical, C102_sedi, C102_climatology, C102_crps, C102_crps_distance, C102_moments, C102_rps, C102_exceedance, C102_each_member, C102_spread_skill, C102_mixed_labels, C102_area, C102_regions, C102_example, C102_table, C102_transforms, C102_wind, C102_anomalies, C103_rename, C103_table, C103_order, C103_deterministic, C103_categorical, C103_ensemble, C103_fss, C103_each_member, C103_wind, C103_seeps, C103_transforms, C103_anomalies, C103_order_deterministic, C103_order_roots, C103_silently_empty, C104_redim, C104_deterministic, C104_rmse, C104_passthrough, C104_categorical, C104_sedi, C104_crps, C104_crps_distance, C104_moments, C104_rps, C104_exceedance, C104_each_member, C104_spread_skill, C104_regions, C104_example, C104_table, C104_transforms, C104_wind, C104_anomalies, C104_area, C104_reserved_name, C105_predictions, C105_targets, C105_persistence, C105_climatology, C105_latency, C105_multiple, C105_evaluation, C105_example, C105_climatology_dates, C106_repeat, C106_same_arrays, C106_deterministic, C106_categorical, C106_floats, C106_plain, C106_rmse, C106_sedi, C106_crps, C106_unbiased, C106_variance, C106_spread_missing, C106_crps_empty, C106_crps_lost, C106_area, C106_regions, C106_land_regions, C106_example, C106_no_labels, C107_crps, C107_mean, C107_mean_scores, C107_renumber, C107_sorted, C107_variance_law, C107_variance_changes, C107_fair_changes, C108_weights, C108_weights_floats, C108_weights_ensembles, C108_cases, C108_deterministic, C108_categorical, C108_floats, C108_rmse, C108_sedi, C108_example, C108_uneven, C108_ensembles, C108_crps, C108_moments, C108_spread_skill, C108_wind, C108_exceedance, C108_anomalies, C109_mean, C109_hidden, C109_deterministic, C109_categorical, C109_rmse, C109_unmasked_statistic, C109_spread_unmasked, C109_variance_unmasked, C109_crps_negative, C109_crps
