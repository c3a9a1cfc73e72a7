{
 "claims": [
  {
   "property": "C01",
   "status": "proved",
   "theorems": [
    "WBX.TimeChunks.C01_cover",
    "WBX.TimeChunks.C01_exactly_once",
    "WBX.TimeChunks.C01_cover_slice"
   ],
   "note": ""
  },
  {
   "property": "C02",
   "status": "proved",
   "theorems": [
    "WBX.TimeChunks.C02_len",
    "WBX.TimeChunks.C02_getItem"
   ],
   "note": ""
  },
  {
   "property": "C03",
   "status": "proved",
   "theorems": [
    "WBX.TimeChunks.C03_offsets",
    "WBX.TimeChunks.C03_offsets_injective",
    "WBX.TimeChunks.C03_slice_none_raises",
    "WBX.TimeChunks.C03_slice_zero_ok"
   ],
   "note": ""
  },
  {
   "property": "C04",
   "status": "proved",
   "theorems": [
    "WBX.TimeChunks.C04_accepts_iff",
    "WBX.TimeChunks.C04_rejects_valueError",
    "WBX.TimeChunks.C04_chunk_sizes",
    "WBX.TimeChunks.C04_size_used"
   ],
   "note": ""
  },
  {
   "property": "C05",
   "status": "proved",
   "theorems": [
    "WBX.C05_labels",
    "WBX.C05_value",
    "WBX.C05_order",
    "WBX.C05_grouping",
    "WBX.C05_grouping_fails_for_differing_dims",
    "WBX.C05_zero_along_dims"
   ],
   "note": ""
  },
  {
   "property": "C06",
   "status": "proved",
   "theorems": [
    "WBX.C06_grouping",
    "WBX.C06_order",
    "WBX.C06_zero_neutral",
    "WBX.C06_zero_add",
    "WBX.C06_keys_of_first_decide"
   ],
   "note": ""
  },
  {
   "property": "C07",
   "status": "proved",
   "theorems": [
    "WBX.C07_chunked_equals_whole",
    "WBX.C07_grid_of_chunks",
    "WBX.C07_bins_varying_per_chunk",
    "WBX.C07_without_chunk_dim_counts_once_per_chunk"
   ],
   "note": ""
  },
  {
   "property": "C08",
   "status": "proved",
   "theorems": [
    "WBX.C08_aggregated_sums",
    "WBX.C08_mean_statistics",
    "WBX.C08_mean_between",
    "WBX.C08_mean_const",
    "WBX.C08_mean_weight_scale",
    "WBX.C08_mean_linear"
   ],
   "note": ""
  },
  {
   "property": "C09",
   "status": "proved",
   "theorems": [
    "WBX.C09_masked_values_are_irrelevant",
    "WBX.C09_unmasked_nan_propagates",
    "WBX.C09_weights_finite",
    "WBX.C09_skipna_drops_nan_cells"
   ],
   "note": ""
  },
  {
   "property": "C10",
   "status": "proved",
   "theorems": [
    "WBX.C10_nan_poisons_every_bin",
    "WBX.C10_masked_out_nan_does_not_poison"
   ],
   "note": ""
  },
  {
   "property": "C11",
   "status": "proved",
   "theorems": [
    "WBX.C11_two_stage",
    "WBX.C11_order"
   ],
   "note": ""
  },
  {
   "property": "C12",
   "status": "proved",
   "theorems": [
    "WBX.C12_variable_survives_iff",
    "WBX.C12_state_keys",
    "WBX.C12_duplicate_bin_names",
    "WBX.C12_duplicate_bin_names_unreduced"
   ],
   "note": ""
  },
  {
   "property": "C13",
   "status": "proved",
   "theorems": [
    "WBX.C13_array",
    "WBX.C13_partition_bins_add_up"
   ],
   "note": ""
  },
  {
   "property": "C14",
   "status": "proved",
   "theorems": [
    "WBX.C14_slash",
    "WBX.C14_data_tree_roundtrip",
    "WBX.C14_dataset_roundtrip",
    "WBX.C14_separator_in_names_collides",
    "WBX.C14_underscore_separator_fails",
    "WBX.C14_long_separator_ambiguous",
    "WBX.C14_sequences_rejected"
   ],
   "note": ""
  },
  {
   "property": "C15",
   "status": "proved",
   "theorems": [
    "WBX.C15_map_one",
    "WBX.C15_functor",
    "WBX.C15_zip",
    "WBX.C15_same_shape_table",
    "WBX.C15_empty",
    "WBX.C15_keys_of_first"
   ],
   "note": ""
  },
  {
   "property": "C16",
   "status": "proved",
   "theorems": [
    "WBX.C16_any_schedule",
    "WBX.C16_schedules_agree",
    "WBX.C16_runs_exist"
   ],
   "note": ""
  },
  {
   "property": "C17",
   "status": "proved",
   "theorems": [
    "WBX.C17_pipeline_equals_direct",
    "WBX.C17_pipeline_bins_varying",
    "WBX.C17_run_exists",
    "WBX.C17_empty_result_becomes_scalar",
    "WBX.C17_interleaved_times_fail"
   ],
   "note": ""
  },
  {
   "property": "C18",
   "status": "proved",
   "theorems": [
    "WBX.AtomicWrite.C18_reader_sees_old_or_complete",
    "WBX.AtomicWrite.C18_last_completed_wins",
    "WBX.AtomicWrite.C18_returned",
    "WBX.AtomicWrite.C18_no_temporary_left",
    "WBX.AtomicWrite.C18_other_files_untouched",
    "WBX.AtomicWrite.C18_exception_only_cleans_up",
    "WBX.AtomicWrite.C18_can_always_complete",
    "WBX.AtomicWrite.C18_failed_move_leaves_temporary",
    "WBX.AtomicWrite.C18_temporary_names_distinct",
    "WBX.AtomicWrite.C18_temporary_paths",
    "WBX.AtomicWrite.C18_completes",
    "WBX.AtomicWrite.C18_shared_temporary_exposes_partial"
   ],
   "note": ""
  },
  {
   "property": "C19",
   "status": "proved",
   "theorems": [
    "WBX.C19_setup_until_success",
    "WBX.Load.C19_setup_at_most_once",
    "WBX.Load.C19_no_setup_fn",
    "WBX.Load.C19_trace",
    "WBX.Load.C19_outputs",
    "WBX.Load.C19_workers_agree"
   ],
   "note": ""
  },
  {
   "property": "C20",
   "status": "proved",
   "theorems": [
    "WBX.C20_together_iff_alone",
    "WBX.C20_singleton",
    "WBX.C20_computed_once",
    "WBX.C20_failure",
    "WBX.C20_name_collision",
    "WBX.C20_result_names",
    "WBX.C20_result_name_collision"
   ],
   "note": ""
  },
  {
   "property": "C21",
   "status": "proved",
   "theorems": [
    "WBX.C21_statistic",
    "WBX.C21_metric",
    "WBX.C21_no_statistics",
    "WBX.C21_metric_total"
   ],
   "note": ""
  },
  {
   "property": "C22",
   "status": "proved",
   "theorems": [
    "WBX.C22_bias_value",
    "WBX.C22_mae_value",
    "WBX.C22_mse_value",
    "WBX.C22_rmse_value",
    "WBX.C22_bias_le_mae_le_rmse",
    "WBX.C22_perfect",
    "WBX.C22_zero_only_if_perfect"
   ],
   "note": ""
  },
  {
   "property": "C23",
   "status": "proved",
   "theorems": [
    "WBX.C23_value",
    "WBX.C23_zero_activity",
    "WBX.C23_range",
    "WBX.C23_perfect",
    "WBX.C23_rescale",
    "WBX.C23_symmetric",
    "WBX.C23_consistent",
    "WBX.C23_mask_mismatch"
   ],
   "note": ""
  },
  {
   "property": "C24",
   "status": "proved",
   "theorems": [
    "WBX.C24_construct",
    "WBX.C24_statistic",
    "WBX.C24_missing",
    "WBX.C24_pointwise",
    "WBX.C24_rmse_sq"
   ],
   "note": ""
  },
  {
   "property": "C25",
   "status": "proved",
   "theorems": [
    "WBX.C25_pointwise",
    "WBX.C25_finite",
    "WBX.C25_antitone",
    "WBX.C25_mean"
   ],
   "note": ""
  },
  {
   "property": "C26",
   "status": "proved",
   "theorems": [
    "WBX.C26_nan",
    "WBX.C26_finite",
    "WBX.C26_exactly_one",
    "WBX.C26_means"
   ],
   "note": ""
  },
  {
   "property": "C27",
   "status": "proved",
   "theorems": [
    "WBX.C27_csi_value",
    "WBX.C27_accuracy_value",
    "WBX.C27_recall_value",
    "WBX.C27_far_value",
    "WBX.C27_precision_value",
    "WBX.C27_f1_value",
    "WBX.C27_frequency_bias_value",
    "WBX.C27_hss_value",
    "WBX.C27_ets_value",
    "WBX.C27_csi_range",
    "WBX.C27_accuracy_range",
    "WBX.C27_recall_range",
    "WBX.C27_precision_far",
    "WBX.C27_f1_csi",
    "WBX.C27_f1_harmonic",
    "WBX.C27_hss_ets",
    "WBX.C27_perfect",
    "WBX.C27_sedi"
   ],
   "note": ""
  },
  {
   "property": "C28",
   "status": "proved",
   "theorems": [
    "WBX.C28_category",
    "WBX.C28_category_nan",
    "WBX.C28_score",
    "WBX.C28_score_nan",
    "WBX.C28_sign",
    "WBX.C28_equitable",
    "WBX.C28_nan_threshold",
    "WBX.C28_per_variable",
    "WBX.C28_construct",
    "WBX.C28_constant",
    "WBX.C28_wet_threshold",
    "WBX.C28_wet_threshold_exists",
    "WBX.C28_dry_fraction",
    "WBX.C28_dry_fraction_dims",
    "WBX.C28_cell"
   ],
   "note": ""
  },
  {
   "property": "C29",
   "status": "proved",
   "theorems": [
    "WBX.C29_missing_dim",
    "WBX.C29_sum",
    "WBX.C29_zero_iff",
    "WBX.C29_symmetric",
    "WBX.C29_step",
    "WBX.C29_nan_scores_zero",
    "WBX.C29_mean"
   ],
   "note": ""
  },
  {
   "property": "C30",
   "status": "proved",
   "theorems": [
    "WBX.C30_pairwise",
    "WBX.C30_skipna",
    "WBX.C30_single_member",
    "WBX.C30_sorted",
    "WBX.C30_nan",
    "WBX.C30_errors",
    "WBX.C30_ok",
    "WBX.C30_shape"
   ],
   "note": ""
  },
  {
   "property": "C31",
   "status": "proved",
   "theorems": [
    "WBX.C31_skill",
    "WBX.C31_spread",
    "WBX.C31_value",
    "WBX.C31_cell_nonneg",
    "WBX.C31_degenerate",
    "WBX.C31_translate",
    "WBX.C31_scale",
    "WBX.C31_permute",
    "WBX.C31_integral",
    "WBX.C31_nonneg",
    "WBX.C31_skill_ensemble_target",
    "WBX.C31_distance",
    "WBX.C31_distance_integral",
    "WBX.C31_skill_nan",
    "WBX.C31_distance_skipna_ignored"
   ],
   "note": ""
  },
  {
   "property": "C32",
   "status": "proved",
   "theorems": [
    "WBX.C32_variance_pairs",
    "WBX.C32_pairs",
    "WBX.C32_variance",
    "WBX.C32_variance_single",
    "WBX.C32_unbiased",
    "WBX.C32_unbiased_ensemble_target",
    "WBX.C32_missing_dim",
    "WBX.C32_rootMeanVariance",
    "WBX.C32_unbiasedRMSE",
    "WBX.C32_spreadSkillRatio"
   ],
   "note": ""
  },
  {
   "property": "C33",
   "status": "proved",
   "theorems": [
    "WBX.C33_indicator",
    "WBX.C33_range",
    "WBX.C33_ranks",
    "WBX.C33_one_hot",
    "WBX.C33_monotone",
    "WBX.C33_monotone_fin",
    "WBX.C33_permutation",
    "WBX.C33_nan",
    "WBX.C33_mean"
   ],
   "note": ""
  },
  {
   "property": "C34",
   "status": "proved",
   "theorems": [
    "WBX.C34_value",
    "WBX.C34_at_most_one",
    "WBX.C34_constant",
    "WBX.C34_no_events",
    "WBX.C34_optimal",
    "WBX.C34_arguments",
    "WBX.C34_ensemble_thresholds",
    "WBX.C34_name_collision",
    "WBX.C34_optimal_values",
    "WBX.C34_optimal_exists",
    "WBX.C34_repeated_threshold",
    "WBX.C34_missing_variable",
    "WBX.C34_nearest_order",
    "WBX.C34_optimal_arguments"
   ],
   "note": ""
  },
  {
   "property": "C35",
   "status": "proved",
   "theorems": [
    "WBX.C35_unfair",
    "WBX.C35_fair",
    "WBX.C35_correction",
    "WBX.C35_unfair_zero",
    "WBX.C35_no_common_bins",
    "WBX.C35_mean"
   ],
   "note": ""
  },
  {
   "property": "C36",
   "status": "proved",
   "theorems": [
    "WBX.C36_day_of_year",
    "WBX.C36_init_lead",
    "WBX.C36_observations",
    "WBX.C36_cdf_value",
    "WBX.C36_monotonicity",
    "WBX.C36_cdf_monotone",
    "WBX.C36_bin_labels",
    "WBX.C36_bin_value",
    "WBX.C36_one_hot",
    "WBX.C36_valid_time"
   ],
   "note": ""
  },
  {
   "property": "C37",
   "status": "proved",
   "theorems": [
    "WBX.C37_value",
    "WBX.C37_nan_threshold",
    "WBX.C37_list",
    "WBX.C37_antitone",
    "WBX.C37_probability",
    "WBX.C37_weibull",
    "WBX.C37_relu",
    "WBX.C37_threshold_arguments"
   ],
   "note": ""
  },
  {
   "property": "C38",
   "status": "proved",
   "theorems": [
    "WBX.C38_which",
    "WBX.C38_compute",
    "WBX.C38_unique",
    "WBX.C38_order",
    "WBX.C38_untouched",
    "WBX.C38_values",
    "WBX.C38_metric",
    "WBX.C38_name",
    "WBX.C38_subselect",
    "WBX.C38_name_collision"
   ],
   "note": ""
  },
  {
   "property": "C39",
   "status": "proved",
   "theorems": [
    "WBX.C39_mask_layout",
    "WBX.C39_mask_layout_raises",
    "WBX.C39_mask_transposed",
    "WBX.C39_window",
    "WBX.C39_labels",
    "WBX.C39_error",
    "WBX.C39_identity",
    "WBX.C39_nan",
    "WBX.C39_edge",
    "WBX.C39_no_wrap",
    "WBX.C39_bounds",
    "WBX.C39_rotate",
    "WBX.C39_mask",
    "WBX.C39_mask_large",
    "WBX.C39_sizes"
   ],
   "note": ""
  },
  {
   "property": "C40",
   "status": "proved",
   "theorems": [
    "WBX.C40_value",
    "WBX.C40_range",
    "WBX.C40_symmetric",
    "WBX.C40_fractions_nonneg",
    "WBX.C40_mask_mismatch",
    "WBX.C40_skipna_mismatch"
   ],
   "note": ""
  },
  {
   "property": "C41",
   "status": "proved",
   "theorems": [
    "WBX.C41_longitude",
    "WBX.C41_longitude_periodic",
    "WBX.C41_latitude",
    "WBX.C41_regions",
    "WBX.C41_regions_land",
    "WBX.C41_regions_error",
    "WBX.C41_latitude_bins",
    "WBX.C41_latitude_bins_cover",
    "WBX.C41_latitude_bins_shared_edge",
    "WBX.C41_latitude_bins_error",
    "WBX.C41_longitude_bins",
    "WBX.C41_longitude_bins_overlap",
    "WBX.C41_chunks",
    "WBX.C41_land_mask_chunk"
   ],
   "note": ""
  },
  {
   "property": "C42",
   "status": "proved",
   "theorems": [
    "WBX.C42_exact",
    "WBX.C42_exact_one_hot",
    "WBX.C42_exact_global",
    "WBX.C42_exact_error",
    "WBX.C42_exact_chunks",
    "WBX.C42_intervals",
    "WBX.C42_intervals_one_hot",
    "WBX.C42_intervals_global",
    "WBX.C42_intervals_error",
    "WBX.C42_sets",
    "WBX.C42_sets_error",
    "WBX.C42_chunks",
    "WBX.C42_set_arguments",
    "WBX.C42_python_set"
   ],
   "note": ""
  },
  {
   "property": "C43",
   "status": "proved",
   "theorems": [
    "WBX.C43_land_sea",
    "WBX.C43_partition",
    "WBX.C43_nan_is_sea",
    "WBX.C43_labels"
   ],
   "note": ""
  },
  {
   "property": "C44",
   "status": "proved",
   "theorems": [
    "WBX.C44_timedelta_sets",
    "WBX.C44_timedelta",
    "WBX.C44_timedelta_second",
    "WBX.C44_datetime",
    "WBX.C44_error",
    "WBX.C44_sets",
    "WBX.C44_from_seconds",
    "WBX.C44_from_seconds_default",
    "WBX.C44_from_seconds_dropped",
    "WBX.C44_from_seconds_error"
   ],
   "note": ""
  },
  {
   "property": "C45",
   "status": "proved",
   "theorems": [
    "WBX.C45_cells",
    "WBX.C45_integral",
    "WBX.C45_reverse",
    "WBX.C45_positive",
    "WBX.C45_mean_one",
    "WBX.C45_total",
    "WBX.C45_normalization",
    "WBX.C45_errors",
    "WBX.C45_array",
    "WBX.C45_latitude_chunks"
   ],
   "note": ""
  },
  {
   "property": "C46",
   "status": "proved",
   "theorems": [
    "WBX.C46_available",
    "WBX.C46_loaded",
    "WBX.C46_errors",
    "WBX.C46_predictions",
    "WBX.C46_no_leakage",
    "WBX.C46_observations",
    "WBX.C46_observations_loads"
   ],
   "note": ""
  },
  {
   "property": "C47",
   "status": "proved",
   "theorems": [
    "WBX.C47_freshest",
    "WBX.C47_argmin_exists",
    "WBX.C47_one_unavailable",
    "WBX.C47_loaded"
   ],
   "note": ""
  },
  {
   "property": "C48",
   "status": "proved",
   "theorems": [
    "WBX.C48_targets",
    "WBX.C48_targets_present",
    "WBX.C48_targets_valid_time",
    "WBX.C48_slices",
    "WBX.C48_targets_no_lead",
    "WBX.C48_climatology",
    "WBX.C48_climatology_no_lead",
    "WBX.C48_climatology_present",
    "WBX.C48_persistence",
    "WBX.C48_persistence_lead",
    "WBX.C48_predictions",
    "WBX.C48_predictions_slice",
    "WBX.C48_aligned",
    "WBX.C48_prob_climatology",
    "WBX.C48_prob_climatology_own_year",
    "WBX.C48_prob_climatology_day",
    "WBX.C48_prob_climatology_floor",
    "WBX.C48_prob_climatology_no_years",
    "WBX.C48_slice_chunk"
   ],
   "note": ""
  },
  {
   "property": "C49",
   "status": "proved",
   "theorems": [
    "WBX.C49_history",
    "WBX.C49_order_of_calls",
    "WBX.C49_preparation_error",
    "WBX.C49_first_step_fails",
    "WBX.C49_retry_after_failure",
    "WBX.C49_order",
    "WBX.C49_no_options",
    "WBX.C49_mask_subset",
    "WBX.C49_latency_options"
   ],
   "note": ""
  },
  {
   "property": "C50",
   "status": "proved",
   "theorems": [
    "WBX.C50_files",
    "WBX.C50_file_names",
    "WBX.C50_partitioned_by",
    "WBX.C50_tolerance",
    "WBX.C50_rows",
    "WBX.C50_no_loss",
    "WBX.C50_no_duplicates",
    "WBX.C50_exact",
    "WBX.C50_tiling",
    "WBX.C50_tolerance_end",
    "WBX.C50_slice",
    "WBX.C50_slice_errors",
    "WBX.C50_missing_file",
    "WBX.C50_dropna",
    "WBX.C50_slice_start_sign",
    "WBX.C50_partition_unit",
    "WBX.C50_file_date",
    "WBX.C50_preprocessing",
    "WBX.C50_slice_unbounded"
   ],
   "note": ""
  },
  {
   "property": "C51",
   "status": "proved",
   "theorems": [
    "WBX.C51_one_per_station",
    "WBX.C51_closest",
    "WBX.C51_first",
    "WBX.C51_loaded"
   ],
   "note": ""
  },
  {
   "property": "C52",
   "status": "proved",
   "theorems": [
    "WBX.C52_temperature",
    "WBX.C52_wind",
    "WBX.C52_not_adjusted",
    "WBX.C52_other"
   ],
   "note": ""
  },
  {
   "property": "C53",
   "status": "proved",
   "theorems": [
    "WBX.C53_order",
    "WBX.C53_empty",
    "WBX.C53_single",
    "WBX.C53_nested",
    "WBX.C53_variables",
    "WBX.C53_dataset"
   ],
   "note": ""
  },
  {
   "property": "C54",
   "status": "proved",
   "theorems": [
    "WBX.C54_interval",
    "WBX.C54_nested",
    "WBX.C54_p_value",
    "WBX.C54_no_spread",
    "WBX.C54_duality",
    "WBX.C54_significance_boundary",
    "WBX.C54_nan",
    "WBX.C54_single_unit",
    "WBX.C54_methods",
    "WBX.C54_significance_tests"
   ],
   "note": ""
  },
  {
   "property": "C55",
   "status": "proved",
   "theorems": [
    "WBX.C55_same_factor",
    "WBX.C55_long_run",
    "WBX.C55_uncorrelated",
    "WBX.C55_geer",
    "WBX.C55_geer_no_spread",
    "WBX.C55_lazarus",
    "WBX.C55_lazarus_iid",
    "WBX.C55_spacing",
    "WBX.C55_spacing_gaps",
    "WBX.C55_geer_zero",
    "WBX.C55_geer_nan"
   ],
   "note": ""
  },
  {
   "property": "C56",
   "status": "proved",
   "theorems": [
    "WBX.C56_interval",
    "WBX.C56_p_value",
    "WBX.C56_outside",
    "WBX.C56_duality",
    "WBX.C56_order",
    "WBX.C56_all_nan",
    "WBX.C56_std",
    "WBX.C56_no_spread",
    "WBX.C56_single_replicate",
    "WBX.C56_cluster",
    "WBX.C56_iid",
    "WBX.C56_estimate",
    "WBX.C56_counts",
    "WBX.C56_stationary_length",
    "WBX.C56_stationary_step",
    "WBX.C56_stationary_range",
    "WBX.C56_stationary_block",
    "WBX.C56_stationary_iid",
    "WBX.C56_resampled_mean",
    "WBX.C56_estimate_mean",
    "WBX.C56_nan_replicate",
    "WBX.C56_block_length"
   ],
   "note": ""
  },
  {
   "property": "C57",
   "status": "proved",
   "theorems": [
    "WBX.C57_statistics",
    "WBX.C57_values",
    "WBX.C57_difference",
    "WBX.C57_difference_value",
    "WBX.C57_states",
    "WBX.C57_paired",
    "WBX.C57_estimates",
    "WBX.C57_for_metrics",
    "WBX.C57_inference_replicates",
    "WBX.C57_inference_estimates",
    "WBX.C57_self"
   ],
   "note": ""
  },
  {
   "property": "C58",
   "status": "proved",
   "theorems": [
    "WBX.Autodiff.C58_value",
    "WBX.Autodiff.C58_mean_zero",
    "WBX.Autodiff.C58_tangents",
    "WBX.Autodiff.C58_weighted_mean",
    "WBX.Autodiff.C58_difference",
    "WBX.Autodiff.C58_linear",
    "WBX.Autodiff.C58_first_order",
    "WBX.Autodiff.C58_root"
   ],
   "note": ""
  },
  {
   "property": "C59",
   "status": "proved",
   "theorems": [
    "WBX.C59_metar",
    "WBX.C59_names",
    "WBX.C59_rename_ignored",
    "WBX.C59_raw"
   ],
   "note": ""
  },
  {
   "property": "C60",
   "status": "proved",
   "theorems": [
    "WBX.C60_linear",
    "WBX.C60_grid_point",
    "WBX.C60_outside",
    "WBX.C60_affine",
    "WBX.C60_range",
    "WBX.C60_outside_any",
    "WBX.C60_affine_inside",
    "WBX.C60_extrapolates",
    "WBX.C60_no_extrapolation"
   ],
   "note": ""
  },
  {
   "property": "C61",
   "status": "proved",
   "theorems": [
    "WBX.C61_wrap",
    "WBX.C61_periodic",
    "WBX.C61_convention"
   ],
   "note": ""
  },
  {
   "property": "C62",
   "status": "proved",
   "theorems": [
    "WBX.C62_box",
    "WBX.C62_longitude_inclusive",
    "WBX.C62_bounds",
    "WBX.C62_dims",
    "WBX.C62_twice"
   ],
   "note": ""
  },
  {
   "property": "C63",
   "status": "proved",
   "theorems": [
    "WBX.C63_positions",
    "WBX.C63_labels",
    "WBX.C63_stride",
    "WBX.C63_one",
    "WBX.C63_twice"
   ],
   "note": ""
  },
  {
   "property": "C64",
   "status": "proved",
   "theorems": [
    "WBX.C64_fraction",
    "WBX.C64_bounds",
    "WBX.C64_antitone",
    "WBX.C64_errors"
   ],
   "note": ""
  },
  {
   "property": "C65",
   "status": "proved",
   "theorems": [
    "WBX.C65_empty",
    "WBX.C65_altitude_empty",
    "WBX.C65_shared_dimension"
   ],
   "note": ""
  },
  {
   "property": "C66",
   "status": "proved",
   "theorems": [
    "WBX.C66_unit_coord"
   ],
   "note": ""
  },
  {
   "property": "C67",
   "status": "proved",
   "theorems": [
    "WBX.C67_prediction_passthrough",
    "WBX.C67_target_passthrough",
    "WBX.C67_labels"
   ],
   "note": ""
  },
  {
   "property": "C68",
   "status": "proved",
   "theorems": [
    "WBX.C68_masks",
    "WBX.C68_conflict"
   ],
   "note": ""
  },
  {
   "property": "C69",
   "status": "proved",
   "theorems": [
    "WBX.C69_value",
    "WBX.C69_nan",
    "WBX.C69_missing_dim",
    "WBX.C69_masked_value",
    "WBX.C69_masked_empty",
    "WBX.C69_masked_nan",
    "WBX.C69_formula"
   ],
   "note": ""
  },
  {
   "property": "C70",
   "status": "proved",
   "theorems": [
    "WBX.C70_init_lead_hour",
    "WBX.C70_init_lead_day",
    "WBX.C70_init_lead_time",
    "WBX.C70_valid_time",
    "WBX.C70_no_times",
    "WBX.C70_missing"
   ],
   "note": ""
  },
  {
   "property": "C71",
   "status": "proved",
   "theorems": [
    "WBX.C71_covered",
    "WBX.C71_covered_range",
    "WBX.C71_covered_wider",
    "WBX.C71_covered_nan",
    "WBX.C71_covered_no_ensemble",
    "WBX.C71_confident",
    "WBX.C71_confident_fin",
    "WBX.C71_confident_missing",
    "WBX.C71_jaccard",
    "WBX.C71_jaccard_range",
    "WBX.C71_jaccard_points",
    "WBX.C71_jaccard_nan",
    "WBX.C71_distant",
    "WBX.C71_covered_fraction",
    "WBX.C71_confident_fraction",
    "WBX.C71_distant_fraction",
    "WBX.C71_value",
    "WBX.C71_not_joint",
    "WBX.C71_unweighted_any",
    "WBX.C71_chunk_count",
    "WBX.C71_chunk_dependent"
   ],
   "note": ""
  },
  {
   "property": "C72",
   "status": "proved",
   "theorems": [
    "WBX.C72_value",
    "WBX.C72_empty_bin",
    "WBX.C72_range",
    "WBX.C72_one_bin",
    "WBX.C72_bins_disjoint"
   ],
   "note": ""
  },
  {
   "property": "C73",
   "status": "proved",
   "theorems": [
    "WBX.C73_any_order",
    "WBX.C73_value",
    "WBX.C73_run_exists",
    "WBX.C73_template",
    "WBX.C73_refused",
    "WBX.C73_slice_raises",
    "WBX.C73_zarr_chunks",
    "WBX.C73_no_time_dims",
    "WBX.C73_name_collision"
   ],
   "note": ""
  },
  {
   "property": "C74",
   "status": "proved",
   "theorems": [
    "WBX.C74_error",
    "WBX.C74_absolute_error",
    "WBX.C74_squared_error",
    "WBX.C74_passthrough",
    "WBX.C74_error_exceedance",
    "WBX.C74_contingency",
    "WBX.C74_rps",
    "WBX.C74_ensemble_variance",
    "WBX.C74_unbiased_mse",
    "WBX.C74_ensemble_averaged",
    "WBX.C74_ensemble_error_exceedance",
    "WBX.C74_crps_skill",
    "WBX.C74_crps_spread",
    "WBX.C74_rank_histogram",
    "WBX.C74_align",
    "WBX.C74_anomalies",
    "WBX.C74_opportunism",
    "WBX.C74_wasserstein",
    "WBX.C74_relative_intensity",
    "WBX.C74_ensemble_rps",
    "WBX.C74_all_statistics",
    "WBX.C74_load_predictions",
    "WBX.C74_load_targets",
    "WBX.C74_load_climatology",
    "WBX.C74_load_persistence",
    "WBX.C74_loaders",
    "WBX.C74_chunk_statistics",
    "WBX.C74_pipeline",
    "WBX.C74_mask_conflict",
    "WBX.C74_continuous_to_binary",
    "WBX.C74_ensemble_mean",
    "WBX.C74_weibull",
    "WBX.C74_relu",
    "WBX.C74_shift",
    "WBX.C74_continuous_to_cdf",
    "WBX.C74_continuous_to_bins",
    "WBX.C74_inline",
    "WBX.C74_wrapped",
    "WBX.C74_wrap_all",
    "WBX.C74_subselect",
    "WBX.C74_wind",
    "WBX.C74_fss",
    "WBX.C74_seeps"
   ],
   "note": ""
  },
  {
   "property": "C75",
   "status": "proved",
   "theorems": [
    "WBX.C75_distance",
    "WBX.C75_labels",
    "WBX.C75_errors",
    "WBX.C75_value_error",
    "WBX.C75_nan",
    "WBX.C75_symmetric",
    "WBX.C75_triangle",
    "WBX.C75_zero",
    "WBX.C75_mean",
    "WBX.C75_single",
    "WBX.C75_affine",
    "WBX.C75_average",
    "WBX.C75_chunks"
   ],
   "note": ""
  },
  {
   "property": "C76",
   "status": "proved",
   "theorems": [
    "WBX.C76_mapping",
    "WBX.C76_ecmwf",
    "WBX.C76_accepts",
    "WBX.C76_errors",
    "WBX.C76_choose",
    "WBX.C76_choose_missing",
    "WBX.C76_sel",
    "WBX.C76_load_forecasts",
    "WBX.C76_load_targets",
    "WBX.C76_without_time",
    "WBX.C76_timedelta_without_coordinate",
    "WBX.C76_lat_without_lon",
    "WBX.C76_init"
   ],
   "note": ""
  },
  {
   "property": "C77",
   "status": "proved",
   "theorems": [
    "WBX.C77_select",
    "WBX.C77_select_ok",
    "WBX.C77_position",
    "WBX.C77_select_isel",
    "WBX.C77_select_statistic",
    "WBX.C77_rename",
    "WBX.C77_rename_errors",
    "WBX.C77_rename_cellwise",
    "WBX.C77_stack_positions",
    "WBX.C77_stack",
    "WBX.C77_stack_mask",
    "WBX.C77_stack_labels",
    "WBX.C77_stack_errors",
    "WBX.C77_stack_sum",
    "WBX.C77_stack_cellwise",
    "WBX.C77_wrapped_local",
    "WBX.C77_stack_local",
    "WBX.C77_select_local"
   ],
   "note": ""
  },
  {
   "property": "C78",
   "status": "proved",
   "theorems": [
    "WBX.C78_fixed",
    "WBX.C78_linear",
    "WBX.C78_clip",
    "WBX.C78_clip_inside",
    "WBX.C78_clip_decreasing",
    "WBX.C78_clip_decreasing_result",
    "WBX.C78_clip_wrapped",
    "WBX.C78_clip_sparse",
    "WBX.C78_no_clip"
   ],
   "note": ""
  },
  {
   "property": "C79",
   "status": "proved",
   "theorems": [
    "WBX.C79_history",
    "WBX.C79_shared_loader",
    "WBX.C79_no_times",
    "WBX.C79_preparation_error",
    "WBX.C79_operational",
    "WBX.C79_no_leakage",
    "WBX.C79_file_name_raises",
    "WBX.C79_accepts",
    "WBX.C79_short_forecast",
    "WBX.C79_selected"
   ],
   "note": ""
  },
  {
   "property": "C80",
   "status": "proved",
   "theorems": [
    "WBX.C80_apply",
    "WBX.C80_whole",
    "WBX.C80_sizes",
    "WBX.C80_not_kept",
    "WBX.C80_last_slice",
    "WBX.C80_last_slice_accepted",
    "WBX.C80_cache",
    "WBX.C80_replicates",
    "WBX.C80_shared",
    "WBX.C80_positions",
    "WBX.C80_arguments",
    "WBX.C80_one_series",
    "WBX.C80_single_variable",
    "WBX.C80_cells"
   ],
   "note": ""
  },
  {
   "property": "C81",
   "status": "proved",
   "theorems": [
    "WBX.C81_stored",
    "WBX.C81_no_output",
    "WBX.C81_metrics_file",
    "WBX.C81_failure",
    "WBX.C81_nothing_written",
    "WBX.C81_statistic_missing",
    "WBX.C81_runs",
    "WBX.C81_order_dependent",
    "WBX.C81_state_file"
   ],
   "note": ""
  },
  {
   "property": "C82",
   "status": "proved",
   "theorems": [
    "WBX.CombineResults.C82_combined",
    "WBX.CombineResults.C82_source",
    "WBX.CombineResults.C82_one_bad_file",
    "WBX.CombineResults.C82_main",
    "WBX.CombineResults.C82_no_files",
    "WBX.CombineResults.C82_display",
    "WBX.CombineResults.C82_processes",
    "WBX.CombineResults.C82_unknown_metric",
    "WBX.CombineResults.C82_no_dot",
    "WBX.CombineResults.C82_two_dots",
    "WBX.CombineResults.C82_distinct_names",
    "WBX.CombineResults.C82_regions",
    "WBX.CombineResults.C82_distinct_regions",
    "WBX.CombineResults.C82_metrics",
    "WBX.CombineResults.C82_values",
    "WBX.CombineResults.C82_no_value"
   ],
   "note": ""
  },
  {
   "property": "C83",
   "status": "proved",
   "theorems": [
    "WBX.Benchmark.C83_both_or_none",
    "WBX.Benchmark.C83_range",
    "WBX.Benchmark.C83_year",
    "WBX.Benchmark.C83_2022",
    "WBX.Benchmark.C83_exceptions",
    "WBX.Benchmark.C83_lead_times",
    "WBX.Benchmark.C83_file_name",
    "WBX.Benchmark.C83_distinct_files",
    "WBX.Benchmark.C83_other_files",
    "WBX.Benchmark.C83_models",
    "WBX.Benchmark.C83_config",
    "WBX.Benchmark.C83_baseline_configs",
    "WBX.Benchmark.C83_variables",
    "WBX.Benchmark.C83_setup",
    "WBX.Benchmark.C83_combinable_deterministic",
    "WBX.Benchmark.C83_combinable_probabilistic",
    "WBX.Benchmark.C83_arrays"
   ],
   "note": ""
  },
  {
   "property": "C84",
   "status": "proved",
   "theorems": [
    "WBX.Dashboard.C84_absolute",
    "WBX.Dashboard.C84_ratio",
    "WBX.Dashboard.C84_title",
    "WBX.Dashboard.C84_relative",
    "WBX.Dashboard.C84_alert",
    "WBX.Dashboard.C84_seeps",
    "WBX.Dashboard.C84_drawn",
    "WBX.Dashboard.C84_level",
    "WBX.Dashboard.C84_visibility",
    "WBX.Dashboard.C84_spread_skill",
    "WBX.Dashboard.C84_not_better",
    "WBX.Dashboard.C84_level_menu",
    "WBX.Dashboard.C84_new_curves"
   ],
   "note": ""
  },
  {
   "property": "C85",
   "status": "proved",
   "theorems": [
    "WBX.Example.C85_times",
    "WBX.Example.C85_written",
    "WBX.Example.C85_values",
    "WBX.Example.C85_empty_region",
    "WBX.Example.C85_runs"
   ],
   "note": ""
  },
  {
   "property": "C86",
   "status": "proved",
   "theorems": [
    "WBX.PublicConfigs.C86_replace",
    "WBX.PublicConfigs.C86_first_member",
    "WBX.PublicConfigs.C86_member_dimension",
    "WBX.PublicConfigs.C86_single_members",
    "WBX.PublicConfigs.C86_table_exists",
    "WBX.PublicConfigs.C86_name_without_mean",
    "WBX.PublicConfigs.C86_public",
    "WBX.PublicConfigs.C86_complete",
    "WBX.PublicConfigs.C86_climatology",
    "WBX.PublicConfigs.C86_members_past",
    "WBX.PublicConfigs.C86_member_is_target"
   ],
   "note": ""
  },
  {
   "property": "C87",
   "status": "proved",
   "theorems": [
    "WBX.C87_metrics_path",
    "WBX.C87_state_path",
    "WBX.C87_retry",
    "WBX.C87_same_path"
   ],
   "note": ""
  },
  {
   "property": "C88",
   "status": "proved",
   "theorems": [
    "WBX.C88_bias",
    "WBX.C88_mae",
    "WBX.C88_mse",
    "WBX.C88_rmse",
    "WBX.C88_ensemble_variance",
    "WBX.C88_crps",
    "WBX.C88_unbiased_mse",
    "WBX.C88_unbiased_rmse",
    "WBX.C88_root_mean_variance",
    "WBX.C88_spread_skill",
    "WBX.C88_wind_vector_rmse",
    "WBX.C88_acc",
    "WBX.C88_rank_histogram",
    "WBX.C88_table",
    "WBX.C88_binary",
    "WBX.C88_cdf",
    "WBX.C88_bins"
   ],
   "note": ""
  },
  {
   "property": "C89",
   "status": "proved",
   "theorems": [
    "WBX.C89_prepared",
    "WBX.C89_alone",
    "WBX.C89_after_first_call",
    "WBX.C89_no_waiting",
    "WBX.C89_single_step",
    "WBX.C89_applied_twice",
    "WBX.C89_raw",
    "WBX.C89_lost_step"
   ],
   "note": ""
  },
  {
   "property": "C90",
   "status": "proved",
   "theorems": [
    "WBX.C90_any_schedule",
    "WBX.C90_dot",
    "WBX.C90_mean",
    "WBX.C90_chunkings_agree",
    "WBX.C90_factor",
    "WBX.C90_double_precision",
    "WBX.C90_relative",
    "WBX.C90_rmse",
    "WBX.C90_order_matters"
   ],
   "note": ""
  },
  {
   "property": "C91",
   "status": "proved",
   "theorems": [
    "WBX.C91_crps",
    "WBX.C91_crps_distance",
    "WBX.C91_variance",
    "WBX.C91_unbiased_mse",
    "WBX.C91_rank_histogram",
    "WBX.C91_wasserstein",
    "WBX.C91_error_exceedance",
    "WBX.C91_ensemble_mean",
    "WBX.C91_averaged",
    "WBX.C91_sorted_spread",
    "WBX.C91_unbiased_rmse",
    "WBX.C91_root_mean_variance",
    "WBX.C91_spread_skill"
   ],
   "note": ""
  },
  {
   "property": "C92",
   "status": "proved",
   "theorems": [
    "WBX.C92_metric",
    "WBX.C92_table",
    "WBX.C92_untouched",
    "WBX.C92_failure",
    "WBX.C92_wrapped",
    "WBX.C92_subselect",
    "WBX.C92_each_member",
    "WBX.C92_categorical",
    "WBX.C92_ensemble",
    "WBX.C92_economic_value",
    "WBX.C92_wind",
    "WBX.C92_wind_component",
    "WBX.C92_seeps",
    "WBX.C92_roots",
    "WBX.C92_dataset_labels"
   ],
   "note": ""
  },
  {
   "property": "C93",
   "status": "proved",
   "theorems": [
    "WBX.Benchmark.C93_regions",
    "WBX.Benchmark.C93_bands",
    "WBX.Benchmark.C93_shape",
    "WBX.Benchmark.C93_value",
    "WBX.Benchmark.C93_scores",
    "WBX.Benchmark.C93_nan",
    "WBX.Benchmark.C93_chunks",
    "WBX.Benchmark.C93_acc",
    "WBX.Benchmark.C93_crps",
    "WBX.Benchmark.C93_ensemble_mean",
    "WBX.Benchmark.C93_vector"
   ],
   "note": ""
  },
  {
   "property": "C94",
   "status": "proved",
   "theorems": [
    "WBX.C94_mae",
    "WBX.C94_mse",
    "WBX.C94_error_exceedance",
    "WBX.C94_averages",
    "WBX.C94_bias",
    "WBX.C94_contingency",
    "WBX.C94_csi",
    "WBX.C94_accuracy",
    "WBX.C94_f1",
    "WBX.C94_hss",
    "WBX.C94_ets",
    "WBX.C94_recall_precision",
    "WBX.C94_frequency_bias",
    "WBX.C94_fss",
    "WBX.C94_rps",
    "WBX.C94_rmse",
    "WBX.C94_wasserstein",
    "WBX.C94_unbiased_mse",
    "WBX.C94_crps_distance",
    "WBX.C94_wind",
    "WBX.C94_wind_rmse",
    "WBX.C94_acc"
   ],
   "note": ""
  },
  {
   "property": "C95",
   "status": "proved",
   "theorems": [
    "WBX.C95_units",
    "WBX.C95_even",
    "WBX.C95_constant",
    "WBX.C95_area"
   ],
   "note": ""
  },
  {
   "property": "C96",
   "status": "proved",
   "theorems": [
    "WBX.C96_bias",
    "WBX.C96_mae",
    "WBX.C96_mse",
    "WBX.C96_exceedance",
    "WBX.C96_rps",
    "WBX.C96_csi",
    "WBX.C96_accuracy",
    "WBX.C96_recall",
    "WBX.C96_precision",
    "WBX.C96_far",
    "WBX.C96_f1",
    "WBX.C96_frequency_bias",
    "WBX.C96_hss",
    "WBX.C96_ets",
    "WBX.C96_fss",
    "WBX.C96_wasserstein",
    "WBX.C96_rmse",
    "WBX.C96_wrapped",
    "WBX.C96_thresholds",
    "WBX.C96_ensemble_mean",
    "WBX.C96_ensemble_exceedance",
    "WBX.C96_crps",
    "WBX.C96_unbiased_mse",
    "WBX.C96_wind",
    "WBX.C96_wind_rmse",
    "WBX.C96_seeps",
    "WBX.C96_seeps_inverted",
    "WBX.C96_acc",
    "WBX.C96_sedi"
   ],
   "note": ""
  },
  {
   "property": "C97",
   "status": "proved",
   "theorems": [
    "WBX.C97_mae",
    "WBX.C97_mse",
    "WBX.C97_rmse",
    "WBX.C97_accuracy",
    "WBX.C97_csi",
    "WBX.C97_recall",
    "WBX.C97_precision",
    "WBX.C97_far",
    "WBX.C97_f1",
    "WBX.C97_hss",
    "WBX.C97_ets",
    "WBX.C97_crps",
    "WBX.C97_crps_side",
    "WBX.C97_sedi",
    "WBX.C97_acc_nearer",
    "WBX.C97_exceedance",
    "WBX.C97_thresholds",
    "WBX.C97_seeps",
    "WBX.C97_rps"
   ],
   "note": ""
  },
  {
   "property": "C98",
   "status": "proved",
   "theorems": [
    "WBX.C98_mse_split",
    "WBX.C98_unbiased_split",
    "WBX.C98_mean_beats_members",
    "WBX.C98_unbiased_le",
    "WBX.C98_mae",
    "WBX.C98_bias",
    "WBX.C98_rmse",
    "WBX.C98_crps",
    "WBX.C98_same_cells",
    "WBX.C98_spread_mask"
   ],
   "note": ""
  },
  {
   "property": "C99",
   "status": "proved",
   "theorems": [
    "WBX.C99_dimension",
    "WBX.C99_bins",
    "WBX.C99_average",
    "WBX.C99_skill_appears",
    "WBX.C99_crps",
    "WBX.C99_fss",
    "WBX.C99_root",
    "WBX.C99_rmse",
    "WBX.C99_spread_skill",
    "WBX.C99_accuracy",
    "WBX.C99_csi",
    "WBX.C99_recall",
    "WBX.C99_precision",
    "WBX.C99_false_alarm",
    "WBX.C99_f1",
    "WBX.C99_frequency_bias"
   ],
   "note": ""
  },
  {
   "property": "C100",
   "status": "proved",
   "theorems": [
    "WBX.C100_select",
    "WBX.C100_no_leakage",
    "WBX.C100_spread_skill_no_leakage",
    "WBX.C100_mask_conflict",
    "WBX.C100_deterministic",
    "WBX.C100_rmse",
    "WBX.C100_categorical",
    "WBX.C100_crps",
    "WBX.C100_root_mean_variance",
    "WBX.C100_spread_skill",
    "WBX.C100_sedi",
    "WBX.C100_error_exceedance",
    "WBX.C100_anomalies",
    "WBX.C100_wrapped",
    "WBX.C100_subselect",
    "WBX.C100_thresholds"
   ],
   "note": ""
  },
  {
   "property": "C101",
   "status": "proved",
   "theorems": [
    "WBX.C101_identify",
    "WBX.C101_together",
    "WBX.C101_last_wins",
    "WBX.C101_crps_settings",
    "WBX.C101_thresholds",
    "WBX.C101_bin_dimension",
    "WBX.C101_wrapped",
    "WBX.C101_subselect_ambiguous",
    "WBX.C101_sizes_ambiguous",
    "WBX.C101_rps_ambiguous",
    "WBX.C101_opportunism",
    "WBX.C101_opportunism_dimension"
   ],
   "note": ""
  },
  {
   "property": "C102",
   "status": "proved",
   "theorems": [
    "WBX.C102_relabel",
    "WBX.C102_deterministic",
    "WBX.C102_rmse",
    "WBX.C102_passthrough",
    "WBX.C102_categorical",
    "WBX.C102_sedi",
    "WBX.C102_climatology",
    "WBX.C102_crps",
    "WBX.C102_crps_distance",
    "WBX.C102_moments",
    "WBX.C102_rps",
    "WBX.C102_exceedance",
    "WBX.C102_each_member",
    "WBX.C102_spread_skill",
    "WBX.C102_mixed_labels",
    "WBX.C102_area",
    "WBX.C102_regions",
    "WBX.C102_example",
    "WBX.C102_table",
    "WBX.C102_wrapped",
    "WBX.C102_transforms",
    "WBX.C102_wind",
    "WBX.C102_anomalies"
   ],
   "note": ""
  },
  {
   "property": "C103",
   "status": "proved",
   "theorems": [
    "WBX.C103_rename",
    "WBX.C103_table",
    "WBX.C103_order",
    "WBX.C103_per_variable",
    "WBX.C103_statistic",
    "WBX.C103_deterministic",
    "WBX.C103_categorical",
    "WBX.C103_ensemble",
    "WBX.C103_fss",
    "WBX.C103_subselect",
    "WBX.C103_wrapped",
    "WBX.C103_each_member",
    "WBX.C103_wind",
    "WBX.C103_seeps",
    "WBX.C103_transforms",
    "WBX.C103_anomalies",
    "WBX.C103_order_deterministic",
    "WBX.C103_order_roots",
    "WBX.C103_silently_empty"
   ],
   "note": ""
  },
  {
   "property": "C104",
   "status": "proved",
   "theorems": [
    "WBX.C104_redim",
    "WBX.C104_deterministic",
    "WBX.C104_rmse",
    "WBX.C104_passthrough",
    "WBX.C104_categorical",
    "WBX.C104_sedi",
    "WBX.C104_crps",
    "WBX.C104_crps_distance",
    "WBX.C104_moments",
    "WBX.C104_rps",
    "WBX.C104_exceedance",
    "WBX.C104_each_member",
    "WBX.C104_spread_skill",
    "WBX.C104_regions",
    "WBX.C104_example",
    "WBX.C104_table",
    "WBX.C104_wrapped",
    "WBX.C104_transforms",
    "WBX.C104_wind",
    "WBX.C104_anomalies",
    "WBX.C104_area",
    "WBX.C104_reserved_name"
   ],
   "note": ""
  },
  {
   "property": "C105",
   "status": "proved",
   "theorems": [
    "WBX.C105_chunks",
    "WBX.C105_offsets",
    "WBX.C105_predictions",
    "WBX.C105_targets",
    "WBX.C105_persistence",
    "WBX.C105_climatology",
    "WBX.C105_available",
    "WBX.C105_latency",
    "WBX.C105_multiple",
    "WBX.C105_variables",
    "WBX.C105_evaluation",
    "WBX.C105_example",
    "WBX.C105_climatology_dates"
   ],
   "note": ""
  },
  {
   "property": "C106",
   "status": "proved",
   "theorems": [
    "WBX.C106_repeat",
    "WBX.C106_same_arrays",
    "WBX.C106_deterministic",
    "WBX.C106_categorical",
    "WBX.C106_floats",
    "WBX.C106_plain",
    "WBX.C106_rmse",
    "WBX.C106_sedi",
    "WBX.C106_crps",
    "WBX.C106_unbiased",
    "WBX.C106_variance",
    "WBX.C106_spread_missing",
    "WBX.C106_crps_empty",
    "WBX.C106_crps_lost",
    "WBX.C106_area",
    "WBX.C106_regions",
    "WBX.C106_land_regions",
    "WBX.C106_example",
    "WBX.C106_no_labels"
   ],
   "note": ""
  },
  {
   "property": "C107",
   "status": "proved",
   "theorems": [
    "WBX.C107_crps",
    "WBX.C107_mean",
    "WBX.C107_mean_scores",
    "WBX.C107_renumber",
    "WBX.C107_sorted",
    "WBX.C107_variance_law",
    "WBX.C107_variance_changes",
    "WBX.C107_fair_changes"
   ],
   "note": ""
  },
  {
   "property": "C108",
   "status": "proved",
   "theorems": [
    "WBX.C108_weights",
    "WBX.C108_weights_floats",
    "WBX.C108_weights_ensembles",
    "WBX.C108_cases",
    "WBX.C108_deterministic",
    "WBX.C108_categorical",
    "WBX.C108_floats",
    "WBX.C108_rmse",
    "WBX.C108_sedi",
    "WBX.C108_example",
    "WBX.C108_uneven",
    "WBX.C108_ensembles",
    "WBX.C108_crps",
    "WBX.C108_moments",
    "WBX.C108_spread_skill",
    "WBX.C108_wind",
    "WBX.C108_exceedance",
    "WBX.C108_anomalies"
   ],
   "note": ""
  },
  {
   "property": "C109",
   "status": "proved",
   "theorems": [
    "WBX.C109_mean",
    "WBX.C109_hidden",
    "WBX.C109_deterministic",
    "WBX.C109_categorical",
    "WBX.C109_infinite",
    "WBX.C109_rmse",
    "WBX.C109_unmasked_statistic",
    "WBX.C109_spread_unmasked",
    "WBX.C109_variance_unmasked",
    "WBX.C109_crps_negative",
    "WBX.C109_crps"
   ],
   "note": ""
  }
 ]
}
