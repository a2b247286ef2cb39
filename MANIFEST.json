{
 "claims": [
  {
   "property": "C01",
   "status": "proved",
   "theorems": [
    "Verif.Cluster.c01_clusters_wellformed",
    "Verif.Cluster.c01_raising_combine_corrupts",
    "Verif.Cluster.c01_decreasing_group_corrupts"
   ],
   "note": ""
  },
  {
   "property": "C02",
   "status": "proved",
   "theorems": [
    "Verif.Cluster.c02_next_progress",
    "Verif.Cluster.c02_next_takes_highest",
    "Verif.Cluster.c02_stop_iff_complete",
    "Verif.Cluster.c02_repeated_x_skips_points",
    "Verif.Cluster.c02_next_joins"
   ],
   "note": ""
  },
  {
   "property": "C03",
   "status": "proved",
   "theorems": [
    "Verif.Cluster.c03_makeclusters_total",
    "Verif.Cluster.c03_makeclusters_unique"
   ],
   "note": ""
  },
  {
   "property": "C04",
   "status": "proved",
   "theorems": [
    "Verif.Cluster.c04_nearest_correct",
    "Verif.Cluster.c04_nearest_sign"
   ],
   "note": ""
  },
  {
   "property": "C05",
   "status": "proved",
   "theorems": [
    "Verif.Cluster.c05_combine_preserves",
    "Verif.Cluster.c05_combine_accepts_iff",
    "Verif.Cluster.c05_combine_raise_unchanged"
   ],
   "note": ""
  },
  {
   "property": "C06",
   "status": "proved",
   "theorems": [
    "Verif.Cluster.c06_adjacent_exact",
    "Verif.Cluster.c06_combine_adjacent",
    "Verif.Cluster.c06_ragged_runs_raise"
   ],
   "note": ""
  },
  {
   "property": "C07",
   "status": "proved",
   "theorems": [
    "Verif.Cluster.c07_reset_replays"
   ],
   "note": ""
  },
  {
   "property": "C08",
   "status": "proved",
   "theorems": [
    "Verif.Cluster.c08_isFull_iff"
   ],
   "note": ""
  },
  {
   "property": "C09",
   "status": "proved",
   "theorems": [
    "Verif.Cluster.c09_zero_resolution"
   ],
   "note": ""
  },
  {
   "property": "C10",
   "status": "proved",
   "theorems": [
    "Verif.Evaluator.c10_comparisons",
    "Verif.Evaluator.c10_trichotomy",
    "Verif.Evaluator.c10_transitive",
    "Verif.Evaluator.c10_no_comparison"
   ],
   "note": ""
  },
  {
   "property": "C11",
   "status": "proved",
   "theorems": [
    "Verif.Evaluator.c11_chisq_zero_iff",
    "Verif.Evaluator.c11_chisq_scaling",
    "Verif.Evaluator.c11_evaluate_value",
    "Verif.Evaluator.c11_penalty",
    "Verif.Evaluator.c11_parsimony",
    "Verif.Evaluator.c11_reused_evaluator_keeps_chisq"
   ],
   "note": ""
  },
  {
   "property": "C12",
   "status": "proved",
   "theorems": [
    "Verif.Evaluator.c12_growth_iff",
    "Verif.Evaluator.c12_growth_monotone",
    "Verif.Evaluator.c12_growth_zero"
   ],
   "note": ""
  },
  {
   "property": "C13",
   "status": "proved",
   "theorems": [
    "Verif.Evaluator.c13_weights",
    "Verif.Evaluator.c13_probs",
    "Verif.Evaluator.c13_shift_invariant"
   ],
   "note": ""
  },
  {
   "property": "C14",
   "status": "proved",
   "theorems": [
    "Verif.Parts.c14_unpack_length",
    "Verif.Parts.c14_unpack_pack",
    "Verif.Parts.c14_pack_unpack",
    "Verif.Parts.c14_short_vector_broadcast",
    "Verif.Parts.c14_integer_array_truncates"
   ],
   "note": ""
  },
  {
   "property": "C15",
   "status": "proved",
   "theorems": [
    "Verif.Parts.c15_pack_keeps_fixed"
   ],
   "note": ""
  },
  {
   "property": "C16",
   "status": "proved",
   "theorems": [
    "Verif.Parts.c16_value",
    "Verif.Parts.c16_residual",
    "Verif.Parts.c16_residual_jacobian"
   ],
   "note": ""
  },
  {
   "property": "C17",
   "status": "proved",
   "theorems": [
    "Verif.Parts.c17_changeowner"
   ],
   "note": ""
  },
  {
   "property": "C18",
   "status": "proved",
   "theorems": [
    "Verif.Parts.c18_fit_refusals",
    "Verif.Parts.c18_fit_success",
    "Verif.Parts.c18_fit_error_keeps_fixed",
    "Verif.Parts.c18_failed_fit_moves_parameters",
    "Verif.Parts.c18_singular_cov_type_error"
   ],
   "note": ""
  },
  {
   "property": "C19",
   "status": "proved",
   "theorems": [
    "Verif.Function.c19_safefunctionlist",
    "Verif.Function.c19_write_read",
    "Verif.Function.c19_missing_base"
   ],
   "note": ""
  },
  {
   "property": "C20",
   "status": "proved",
   "theorems": [
    "Verif.Function.c20_value",
    "Verif.Function.c20_jacobian"
   ],
   "note": ""
  },
  {
   "property": "C21",
   "status": "proved",
   "theorems": [
    "Verif.Function.c21_init_accepts_iff",
    "Verif.Function.c21_resolution",
    "Verif.Function.c21_transform"
   ],
   "note": ""
  },
  {
   "property": "C22",
   "status": "proved",
   "theorems": [
    "Verif.Parts.Covariance.c22_free_rank",
    "Verif.Parts.Covariance.c22_setcovariance",
    "Verif.Parts.Covariance.c22_numbering",
    "Verif.Parts.Covariance.c22_stale_map"
   ],
   "note": ""
  },
  {
   "property": "C23",
   "status": "proved",
   "theorems": [
    "Verif.Parts.Covariance.c23_correlation",
    "Verif.Parts.Covariance.c23_fixed_parameters",
    "Verif.Parts.Covariance.c23_uncertainty"
   ],
   "note": ""
  },
  {
   "property": "C24",
   "status": "proved",
   "theorems": [
    "Verif.Parts.Covariance.c24_blocks",
    "Verif.Parts.Covariance.c24_transform",
    "Verif.Parts.Covariance.c24_diagonal",
    "Verif.Parts.Covariance.c24_positive",
    "Verif.Parts.Covariance.c24_baseline_selector",
    "Verif.Parts.Covariance.c24_missing_gradient",
    "Verif.Parts.Covariance.c24_parameterless_part",
    "Verif.Parts.Covariance.c24_nonsymmetric_gradient"
   ],
   "note": ""
  },
  {
   "property": "C25",
   "status": "proved",
   "theorems": [
    "Verif.Parts.ModelCluster.c25_join_refuses",
    "Verif.Parts.ModelCluster.c25_join",
    "Verif.Parts.ModelCluster.c25_join_symmetric",
    "Verif.Parts.ModelCluster.c25_border_height",
    "Verif.Parts.ModelCluster.c25_border_ignores_baseline"
   ],
   "note": ""
  },
  {
   "property": "C26",
   "status": "proved",
   "theorems": [
    "Verif.Parts.ModelCluster.c26_replacepeaks",
    "Verif.Parts.ModelCluster.c26_deletepeak",
    "Verif.Parts.ModelCluster.c26_delete_last_does_nothing"
   ],
   "note": ""
  },
  {
   "property": "C27",
   "status": "proved",
   "theorems": [
    "Verif.Parts.ModelCluster.c27_fit",
    "Verif.Parts.ModelCluster.c27_fit_keeps_peaks",
    "Verif.Parts.ModelCluster.c27_fit_empty",
    "Verif.Parts.ModelCluster.c27_none_but_changed",
    "Verif.Parts.ModelCluster.c27_exception_moves_parameters"
   ],
   "note": ""
  },
  {
   "property": "C28",
   "status": "proved",
   "theorems": [
    "Verif.Parts.ModelCluster.c28_never_fit",
    "Verif.Parts.ModelCluster.c28_default_slice_raises",
    "Verif.Parts.ModelCluster.c28_contingent_fit",
    "Verif.Parts.ModelCluster.c28_not_twice",
    "Verif.Parts.ModelCluster.c28_copy"
   ],
   "note": ""
  },
  {
   "property": "C29",
   "status": "proved",
   "theorems": [
    "Verif.Parts.ModelCluster.c29_prune_keeps",
    "Verif.Parts.ModelCluster.c29_prune_terminates",
    "Verif.Parts.ModelCluster.c29_prune_improves",
    "Verif.Parts.ModelCluster.c29_index_error",
    "Verif.Parts.ModelCluster.c29_can_get_worse",
    "Verif.Parts.ModelCluster.c29_stops_early",
    "Verif.Parts.ModelCluster.c29_fixed_parameters_counted"
   ],
   "note": ""
  },
  {
   "property": "C30",
   "status": "proved",
   "theorems": [
    "Verif.Peaks.c30_density",
    "Verif.Peaks.c30_gaussian_pwa"
   ],
   "note": ""
  },
  {
   "property": "C31",
   "status": "proved",
   "theorems": [
    "Verif.Peaks.c31_normalise",
    "Verif.Peaks.c31_roundtrip",
    "Verif.Peaks.c31_internal_roundtrip",
    "Verif.Peaks.c31_pwa_sigma",
    "Verif.Peaks.c31_very_negative_width_nan",
    "Verif.Peaks.c31_integer_parameters_truncated"
   ],
   "note": ""
  },
  {
   "property": "C32",
   "status": "proved",
   "theorems": [
    "Verif.Peaks.c32_fwhm_bounds",
    "Verif.Peaks.c32_constructor",
    "Verif.Peaks.c32_too_wide"
   ],
   "note": ""
  },
  {
   "property": "C33",
   "status": "proved",
   "theorems": [
    "Verif.Peaks.c33_jacobian",
    "Verif.Peaks.c33_rows",
    "Verif.Peaks.c33_gaussian_jacobian_raises"
   ],
   "note": ""
  },
  {
   "property": "C34",
   "status": "proved",
   "theorems": [
    "Verif.Peaks.c34_width_derivative",
    "Verif.Peaks.c34_other_entries"
   ],
   "note": ""
  },
  {
   "property": "C35",
   "status": "proved",
   "theorems": [
    "Verif.Peaks.c35_gaussian_max",
    "Verif.Peaks.c35_overR_max",
    "Verif.Peaks.c35_overR_no_max",
    "Verif.Peaks.c35_overR_negative_position"
   ],
   "note": ""
  },
  {
   "property": "C36",
   "status": "proved",
   "theorems": [
    "Verif.Peaks.c36_gaussian_scale",
    "Verif.Peaks.c36_gaussian_refusals",
    "Verif.Peaks.c36_gaussian_at_position_collapses",
    "Verif.Peaks.c36_overR_scale",
    "Verif.Peaks.c36_overR_max_kept",
    "Verif.Peaks.c36_overR_shrink"
   ],
   "note": ""
  },
  {
   "property": "C37",
   "status": "proved",
   "theorems": [
    "Verif.PeakList.c37_sort",
    "Verif.PeakList.c37_argsort"
   ],
   "note": ""
  },
  {
   "property": "C38",
   "status": "proved",
   "theorems": [
    "Verif.Baseline.c38_value",
    "Verif.Baseline.c38_jacobian_rows_reversed",
    "Verif.Baseline.c38_estimate",
    "Verif.Baseline.c38_lowest_points"
   ],
   "note": ""
  },
  {
   "property": "C39",
   "status": "proved",
   "theorems": [
    "Verif.Baseline.c39_array",
    "Verif.Baseline.c39_value",
    "Verif.Baseline.c39_shape",
    "Verif.Baseline.c39_negative_radius",
    "Verif.Baseline.c39_jacobian_radius",
    "Verif.Baseline.c39_jacobian_scale",
    "Verif.Baseline.c39_transform"
   ],
   "note": ""
  },
  {
   "property": "C40",
   "status": "proved",
   "theorems": [
    "Verif.Extraction.c40_range_slice"
   ],
   "note": ""
  },
  {
   "property": "C41",
   "status": "proved",
   "theorems": [
    "Verif.Extraction.c41_partition",
    "Verif.Extraction.c41_nearest",
    "Verif.Extraction.c41_interpeak"
   ],
   "note": ""
  },
  {
   "property": "C42",
   "status": "proved",
   "theorems": [
    "Verif.Pdf.c42_errorscale",
    "Verif.Pdf.c42_resample",
    "Verif.Pdf.c42_nonuniform_grid",
    "Verif.Pdf.c42_grid",
    "Verif.Pdf.c42_uncertainties",
    "Verif.Pdf.c42_uncertainty_at_grid"
   ],
   "note": ""
  },
  {
   "property": "C43",
   "status": "proved",
   "theorems": [
    "Verif.Pdf.c43_stdratio"
   ],
   "note": ""
  },
  {
   "property": "C44",
   "status": "proved",
   "theorems": [
    "Verif.Multimodel.c44_classify",
    "Verif.Multimodel.c44_disjoint_peaks_alike",
    "Verif.Multimodel.c44_functions_not_compared",
    "Verif.Multimodel.c44_not_transitive"
   ],
   "note": ""
  },
  {
   "property": "C45",
   "status": "proved",
   "theorems": [
    "Verif.Multimodel.c45_all_models",
    "Verif.Multimodel.c45_class_models",
    "Verif.Multimodel.c45_classes",
    "Verif.Multimodel.c45_default",
    "Verif.Multimodel.c45_prob_of_class",
    "Verif.Multimodel.c45_modelbestdgs",
    "Verif.Multimodel.c45_dgs_ignored",
    "Verif.Multimodel.c45_dg_key"
   ],
   "note": ""
  },
  {
   "property": "C46",
   "status": "proved",
   "theorems": [
    "Verif.Multimodel.c46_rescaled",
    "Verif.Multimodel.c46_makeaics",
    "Verif.Multimodel.c46_makeaics_distinct"
   ],
   "note": ""
  },
  {
   "property": "C47",
   "status": "proved",
   "theorems": [
    "Verif.DataSet.c47_read",
    "Verif.DataSet.c47_all_or_none",
    "Verif.DataSet.c47_roundtrip",
    "Verif.DataSet.c47_mixed_lost",
    "Verif.DataSet.c47_empty_not_readable",
    "Verif.DataSet.c47_error_leaves_part",
    "Verif.DataSet.c47_copy"
   ],
   "note": ""
  },
  {
   "property": "C48",
   "status": "proved",
   "theorems": [
    "Verif.DataSet.c48_setvar"
   ],
   "note": ""
  },
  {
   "property": "C49",
   "status": "proved",
   "theorems": [
    "Verif.Srmiselog.c49_levels_independent",
    "Verif.Srmiselog.c49_effect",
    "Verif.Srmiselog.c49_addfilelog_debug",
    "Verif.Srmiselog.c49_notset_hides",
    "Verif.Srmiselog.c49_names",
    "Verif.Srmiselog.c49_liveplotting"
   ],
   "note": ""
  },
  {
   "property": "C50",
   "status": "proved",
   "theorems": [
    "Verif.Srmiselog.c50_trace",
    "Verif.Srmiselog.c50_numbers",
    "Verif.Srmiselog.c50_filter",
    "Verif.Srmiselog.c50_exception_not_reset",
    "Verif.Srmiselog.c50_read_ignores_file"
   ],
   "note": ""
  },
  {
   "property": "C51",
   "status": "proved",
   "theorems": [
    "Verif.Cluster.c51_extraction_loop_total"
   ],
   "note": ""
  },
  {
   "property": "C52",
   "status": "proved",
   "theorems": [
    "Verif.Cluster.c52_inside",
    "Verif.Cluster.c52_right_of_data",
    "Verif.Cluster.c52_left_of_data",
    "Verif.Cluster.c52_not_nearest"
   ],
   "note": ""
  },
  {
   "property": "C53",
   "status": "proved",
   "theorems": [
    "Verif.Parts.c53_new",
    "Verif.Parts.c53_copy_eq",
    "Verif.Parts.c53_setfree"
   ],
   "note": ""
  },
  {
   "property": "C54",
   "status": "proved",
   "theorems": [
    "Verif.Baseline.c54_arbitrary",
    "Verif.Baseline.c54_one_parameter_too_many",
    "Verif.Baseline.c54_no_jacobian",
    "Verif.Baseline.c54_signature",
    "Verif.Baseline.c54_first_character_lost"
   ],
   "note": ""
  },
  {
   "property": "C55",
   "status": "proved",
   "theorems": [
    "Verif.Peaks.c55_estimate"
   ],
   "note": ""
  },
  {
   "property": "C56",
   "status": "proved",
   "theorems": [
    "Verif.Parts.Covariance.c56_correlationwarning"
   ],
   "note": ""
  },
  {
   "property": "C57",
   "status": "proved",
   "theorems": [
    "Verif.PeakList.c57_scale_at",
    "Verif.PeakList.c57_fixed_kept",
    "Verif.PeakList.c57_matches",
    "Verif.PeakList.c57_false_unchanged",
    "Verif.PeakList.c57_false_two_peaks",
    "Verif.PeakList.c57_second_attempt_fails",
    "Verif.PeakList.c57_false_but_changed"
   ],
   "note": ""
  },
  {
   "property": "C58",
   "status": "proved",
   "theorems": [
    "Verif.Parts.ModelCluster.c58_cleanfit"
   ],
   "note": ""
  },
  {
   "property": "C59",
   "status": "proved",
   "theorems": [
    "Verif.Parts.ModelCluster.c59_reduce_to",
    "Verif.Parts.ModelCluster.c59_ignores_baseline",
    "Verif.Parts.ModelCluster.c59_can_get_worse"
   ],
   "note": ""
  },
  {
   "property": "C60",
   "status": "proved",
   "theorems": [
    "Verif.Parts.ModelCluster.c60_augment_peaks",
    "Verif.Parts.ModelCluster.c60_nonremovable_refused",
    "Verif.Parts.ModelCluster.c60_augment_terminates",
    "Verif.Parts.ModelCluster.c60_augment_greedy",
    "Verif.Parts.ModelCluster.c60_can_get_worse"
   ],
   "note": ""
  },
  {
   "property": "C61",
   "status": "proved",
   "theorems": [
    "Verif.Extraction.c61_setdata",
    "Verif.Extraction.c61_failed_call_replaces_data"
   ],
   "note": ""
  },
  {
   "property": "C62",
   "status": "proved",
   "theorems": [
    "Verif.Extraction.c62_setvars"
   ],
   "note": ""
  },
  {
   "property": "C63",
   "status": "proved",
   "theorems": [
    "Verif.Extraction.c63_defaults",
    "Verif.Extraction.c63_idempotent",
    "Verif.Extraction.c63_estimated_baseline",
    "Verif.Extraction.c63_stale_after_setdata",
    "Verif.Extraction.c63_zero_uncertainty"
   ],
   "note": ""
  },
  {
   "property": "C64",
   "status": "proved",
   "theorems": [
    "Verif.Pdf.c64_alias",
    "Verif.Pdf.c64_refused",
    "Verif.Pdf.c64_automatic",
    "Verif.Pdf.c64_defaults"
   ],
   "note": ""
  },
  {
   "property": "C65",
   "status": "proved",
   "theorems": [
    "Verif.Pdf.c65_roundtrip",
    "Verif.Pdf.c65_missing"
   ],
   "note": ""
  },
  {
   "property": "C66",
   "status": "proved",
   "theorems": [
    "Verif.Pdf.c66_terminates",
    "Verif.Pdf.c66_assumption_needed"
   ],
   "note": ""
  },
  {
   "property": "C67",
   "status": "proved",
   "theorems": [
    "Verif.Parts.Extract.c67_near_data",
    "Verif.Parts.Extract.c67_adds_one",
    "Verif.Parts.Extract.c67_unexplained",
    "Verif.Parts.Extract.c67_none"
   ],
   "note": ""
  },
  {
   "property": "C68",
   "status": "proved",
   "theorems": [
    "Verif.Parts.Extract.c68_whole_range",
    "Verif.Parts.Extract.c68_loop_bound"
   ],
   "note": ""
  },
  {
   "property": "C69",
   "status": "proved",
   "theorems": [
    "Verif.Parts.Extract.c69_provenance",
    "Verif.Parts.Extract.c69_actual_fit_tame"
   ],
   "note": ""
  },
  {
   "property": "C70",
   "status": "proved",
   "theorems": [
    "Verif.Parts.Extract.c70_hard_kept"
   ],
   "note": ""
  },
  {
   "property": "C71",
   "status": "proved",
   "theorems": [
    "Verif.Parts.Extract.c71_no_reason",
    "Verif.Parts.Extract.c71_depth"
   ],
   "note": ""
  },
  {
   "property": "C72",
   "status": "proved",
   "theorems": [
    "Verif.Parts.Extract.c72_fit_single",
    "Verif.Parts.Extract.c72_others_untouched",
    "Verif.Parts.Extract.c72_not_worse",
    "Verif.Parts.Extract.c72_nothing_to_fit",
    "Verif.Parts.Extract.c72_failed_fit_moves_initial"
   ],
   "note": ""
  },
  {
   "property": "C73",
   "status": "proved",
   "theorems": [
    "Verif.Parts.Extract.c73_join",
    "Verif.Parts.Extract.c73_deepen",
    "Verif.Parts.Extract.c73_boundary",
    "Verif.Parts.Extract.c73_wrong_border",
    "Verif.Parts.Extract.c73_finish"
   ],
   "note": ""
  },
  {
   "property": "C74",
   "status": "proved",
   "theorems": [
    "Verif.App.c74_options_reach",
    "Verif.App.c74_uncertainty",
    "Verif.App.c74_negative_options_ignored",
    "Verif.App.c74_pf_me_never",
    "Verif.App.c74_bseq_ignored",
    "Verif.App.c74_default_uncertainty",
    "Verif.App.c74_qmax_not_estimated",
    "Verif.App.c74_uncaught"
   ],
   "note": ""
  },
  {
   "property": "C75",
   "status": "proved",
   "theorems": [
    "Verif.App.c75_parsepars",
    "Verif.App.c75_bcrystal",
    "Verif.App.c75_choice"
   ],
   "note": ""
  },
  {
   "property": "C76",
   "status": "proved",
   "theorems": [
    "Verif.Text.c76_function_roundtrip",
    "Verif.Text.c76_equals_in_value",
    "Verif.Text.c76_writable",
    "Verif.Text.c76_roundtrip",
    "Verif.Text.c76_malformed",
    "Verif.Text.c76_nan_unreadable",
    "Verif.Text.c76_owner_index"
   ],
   "note": ""
  },
  {
   "property": "C77",
   "status": "proved",
   "theorems": [
    "Verif.Text.c77_writable",
    "Verif.Text.c77_roundtrip",
    "Verif.Text.c77_evaluator_not_found",
    "Verif.Text.c77_no_points",
    "Verif.Text.c77_no_data_section",
    "Verif.Text.c77_columns"
   ],
   "note": ""
  },
  {
   "property": "C78",
   "status": "proved",
   "theorems": [
    "Verif.Text.c78_read",
    "Verif.Text.c78_writable",
    "Verif.Text.c78_unwritable"
   ],
   "note": ""
  },
  {
   "property": "C79",
   "status": "proved",
   "theorems": [
    "Verif.Multimodel.c79_partitions",
    "Verif.Multimodel.c79_models",
    "Verif.Multimodel.c79_classes",
    "Verif.Multimodel.c79_maxprobmodel",
    "Verif.Multimodel.c79_maxprobdG",
    "Verif.Multimodel.c79_get",
    "Verif.Multimodel.c79_get_dG",
    "Verif.Multimodel.c79_class_not_of_model",
    "Verif.Multimodel.c79_classes_stale",
    "Verif.Multimodel.c79_results_stale",
    "Verif.Multimodel.c79_nfree_no_baseline",
    "Verif.Multimodel.c79_loadaics"
   ],
   "note": ""
  },
  {
   "property": "C80",
   "status": "proved",
   "theorems": [
    "Verif.Parts.Stability.c80_run_code",
    "Verif.Parts.Stability.c80_first_changed",
    "Verif.Parts.Stability.c80_last_point_lost",
    "Verif.Parts.Stability.c80_run",
    "Verif.Parts.Stability.c80_setcurrent",
    "Verif.Parts.Stability.c80_bad_index",
    "Verif.Parts.Stability.c80_none",
    "Verif.Parts.Stability.c80_same_data",
    "Verif.Parts.Stability.c80_baseline_shared",
    "Verif.Parts.Stability.c80_animate"
   ],
   "note": ""
  },
  {
   "property": "C81",
   "status": "proved",
   "theorems": [
    "Verif.Parts.PdfExtract.c81_ripples_lost",
    "Verif.Parts.PdfExtract.c81_may_not_end",
    "Verif.Parts.PdfExtract.c81_extract",
    "Verif.Parts.PdfExtract.c81_overdetermined",
    "Verif.Parts.PdfExtract.c81_terminates",
    "Verif.Parts.PdfExtract.c81_found_peaks_ripple"
   ],
   "note": ""
  },
  {
   "property": "C82",
   "status": "proved",
   "theorems": [
    "Verif.Parts.PdfExtract.c82_fit",
    "Verif.Parts.PdfExtract.c82_objects"
   ],
   "note": ""
  },
  {
   "property": "C83",
   "status": "proved",
   "theorems": [
    "Verif.Ripples.c83_kernel",
    "Verif.Ripples.c83_linear",
    "Verif.Ripples.c83_energy",
    "Verif.Ripples.c83_identity",
    "Verif.Ripples.c83_projection",
    "Verif.Ripples.c83_cutoff"
   ],
   "note": ""
  },
  {
   "property": "C84",
   "status": "proved",
   "theorems": [
    "Verif.Ripples.c84_value",
    "Verif.Ripples.c84_value_at",
    "Verif.Ripples.c84_linear",
    "Verif.Ripples.c84_jacobian",
    "Verif.Ripples.c84_short",
    "Verif.Ripples.c84_jacobian_at",
    "Verif.Ripples.c84_coarse_jacobian",
    "Verif.Ripples.c84_range_not_mask"
   ],
   "note": ""
  },
  {
   "property": "C85",
   "status": "proved",
   "theorems": [
    "Verif.Parts.Extract.c85_only_value_error",
    "Verif.Parts.Extract.c85_total",
    "Verif.Parts.Extract.c85_stray"
   ],
   "note": ""
  },
  {
   "property": "C86",
   "status": "proved",
   "theorems": [
    "Verif.Plot.c86_off_grid",
    "Verif.Plot.c86_unextracted",
    "Verif.Plot.c86_one_point",
    "Verif.Plot.c86_residual_only",
    "Verif.Plot.c86_height_without_series",
    "Verif.Plot.c86_insets",
    "Verif.Plot.c86_observed",
    "Verif.Plot.c86_bands",
    "Verif.Plot.c86_curves",
    "Verif.Plot.c86_grid"
   ],
   "note": ""
  },
  {
   "property": "C87",
   "status": "proved",
   "theorems": [
    "Verif.Plot.c87_compare",
    "Verif.Plot.c87_dots",
    "Verif.Plot.c87_unsorted"
   ],
   "note": ""
  },
  {
   "property": "C88",
   "status": "proved",
   "theorems": [
    "Verif.Plot.c88_load",
    "Verif.Plot.c88_save",
    "Verif.Plot.c88_main",
    "Verif.Plot.c88_compare",
    "Verif.Plot.c88_drawn"
   ],
   "note": ""
  },
  {
   "property": "C89",
   "status": "proved",
   "theorems": [
    "Verif.Peaks.c89_gaussian",
    "Verif.Text.c89_peaks",
    "Verif.Text.c89_same_function",
    "Verif.Text.c89_comments",
    "Verif.Text.c89_baseline",
    "Verif.Text.c89_counts",
    "Verif.Text.c89_writable",
    "Verif.Text.c89_not_extracted",
    "Verif.Text.c89_unwritable",
    "Verif.Text.c89_file",
    "Verif.Text.c89_baseline_count"
   ],
   "note": ""
  },
  {
   "property": "C90",
   "status": "proved",
   "theorems": [
    "Verif.Parts.History.c90_result",
    "Verif.Parts.History.c90_kind",
    "Verif.Parts.History.c90_failed",
    "Verif.Parts.History.c90_data",
    "Verif.Parts.History.c90_vars",
    "Verif.Parts.History.c90_reuse",
    "Verif.Parts.History.c90_clear",
    "Verif.Parts.History.c90_stale",
    "Verif.Parts.History.c90_stale_qmax",
    "Verif.Parts.History.c90_repeat"
   ],
   "note": ""
  },
  {
   "property": "C91",
   "status": "proved",
   "theorems": [
    "Verif.Pdf.c91_base",
    "Verif.Pdf.c91_base_function",
    "Verif.Pdf.c91_base_nil",
    "Verif.Pdf.c91_pdf",
    "Verif.Pdf.c91_twice",
    "Verif.Pdf.c91_everything",
    "Verif.Pdf.c91_unknown",
    "Verif.Pdf.c91_pdf_nil"
   ],
   "note": ""
  },
  {
   "property": "C92",
   "status": "proved",
   "theorems": [
    "Verif.Extraction.c92_one",
    "Verif.Extraction.c92_caller",
    "Verif.Extraction.c92_shared",
    "Verif.Extraction.c92_own"
   ],
   "note": ""
  },
  {
   "property": "C93",
   "status": "proved",
   "theorems": [
    "Verif.Pdf.c93_automatic",
    "Verif.Pdf.c93_errors",
    "Verif.Pdf.c93_value",
    "Verif.Pdf.c93_range",
    "Verif.Pdf.c93_units",
    "Verif.Pdf.c93_scale"
   ],
   "note": ""
  },
  {
   "property": "C94",
   "status": "proved",
   "theorems": [
    "Verif.Parts.ModelCluster.c94_value",
    "Verif.Parts.ModelCluster.c94_pointwise",
    "Verif.Parts.ModelCluster.c94_residual",
    "Verif.Parts.ModelCluster.c94_quality",
    "Verif.Parts.ModelCluster.c94_quality_negative",
    "Verif.Parts.ModelCluster.c94_order",
    "Verif.Parts.ModelCluster.c94_external",
    "Verif.Parts.ModelCluster.c94_plottable"
   ],
   "note": ""
  },
  {
   "property": "C95",
   "status": "proved",
   "theorems": [
    "Verif.Parts.Extract.c95_singular",
    "Verif.Parts.Extract.c95_stray",
    "Verif.Parts.Extract.c95_quality",
    "Verif.Parts.Extract.c95_fit",
    "Verif.Parts.Extract.c95_growth",
    "Verif.Parts.Extract.c95_honest",
    "Verif.Parts.Extract.c95_shift",
    "Verif.Parts.Extract.c95_prune_start",
    "Verif.Parts.Extract.c95_prune",
    "Verif.Parts.Extract.c95_augment",
    "Verif.Parts.Extract.c95_sane",
    "Verif.Parts.Extract.c95_estimates",
    "Verif.Parts.Extract.c95_calm",
    "Verif.Parts.Extract.c95_fits",
    "Verif.Parts.Extract.c95_search"
   ],
   "note": ""
  },
  {
   "property": "C96",
   "status": "proved",
   "theorems": [
    "Verif.Parts.Covariance.c96_report",
    "Verif.Parts.Covariance.c96_report_get",
    "Verif.Parts.Covariance.c96_report_transformed",
    "Verif.Parts.Covariance.c96_undefined",
    "Verif.Parts.Covariance.c96_stale"
   ],
   "note": ""
  },
  {
   "property": "C97",
   "status": "proved",
   "theorems": [
    "Verif.Parts.Extract.c97_reordered",
    "Verif.Parts.Extract.c97_removed",
    "Verif.Parts.Extract.c97_same_fit",
    "Verif.Parts.Extract.c97_kept",
    "Verif.Parts.Extract.c97_reverted",
    "Verif.Parts.Extract.c97_untouched",
    "Verif.Parts.Extract.c97_extract",
    "Verif.Parts.Extract.c97_fit_single",
    "Verif.Parts.Extract.c97_undefined"
   ],
   "note": ""
  },
  {
   "property": "C98",
   "status": "proved",
   "theorems": [
    "Verif.Parts.Extract.c98_extract",
    "Verif.Parts.Extract.c98_fit_single",
    "Verif.Parts.PdfExtract.c98_pdf_extract",
    "Verif.Parts.PdfExtract.c98_pdf_fit"
   ],
   "note": ""
  },
  {
   "property": "C99",
   "status": "proved",
   "theorems": [
    "Verif.Parts.Package.c99_match",
    "Verif.Parts.Package.c99_curve",
    "Verif.Parts.Package.c99_extract",
    "Verif.Parts.Package.c99_fit_single",
    "Verif.Parts.Package.c99_search",
    "Verif.Parts.Package.c99_estimate",
    "Verif.Parts.Package.c99_pdf_extract",
    "Verif.Parts.Package.c99_pdf_fit"
   ],
   "note": ""
  },
  {
   "property": "C100",
   "status": "proved",
   "theorems": [
    "Verif.Cluster.c100_units",
    "Verif.Cluster.c100_order"
   ],
   "note": ""
  },
  {
   "property": "C101",
   "status": "proved",
   "theorems": [
    "Verif.Cluster.c101_boundaries",
    "Verif.Cluster.c101_plot_fails",
    "Verif.Cluster.c101_animate"
   ],
   "note": ""
  },
  {
   "property": "C102",
   "status": "proved",
   "theorems": [
    "Verif.Parts.PdfExtract.c102_same",
    "Verif.Parts.PdfExtract.c102_extract",
    "Verif.Parts.PdfExtract.c102_fit",
    "Verif.Parts.PdfExtract.c102_rejected"
   ],
   "note": ""
  },
  {
   "property": "C103",
   "status": "proved",
   "theorems": [
    "Verif.App.c103_handlers_unreachable",
    "Verif.App.c103_success",
    "Verif.App.c103_files",
    "Verif.App.c103_unsaved",
    "Verif.App.c103_pwa_needs_extraction"
   ],
   "note": ""
  },
  {
   "property": "C104",
   "status": "proved",
   "theorems": [
    "Verif.Peaks.c104_peak_value",
    "Verif.Peaks.c104_peak_transform",
    "Verif.Peaks.c104_peak_max",
    "Verif.Peaks.c104_peak_estimate",
    "Verif.Parts.Units.c104_extract",
    "Verif.Parts.Units.c104_estimate_peak",
    "Verif.Parts.Units.c104_add_peaks",
    "Verif.Parts.Units.c104_fit_single",
    "Verif.Parts.Units.c104_quality",
    "Verif.Parts.Units.c104_defaults",
    "Verif.Parts.Units.c104_package",
    "Verif.Parts.Units.c104_reported",
    "Verif.Parts.Units.c104_integers"
   ],
   "note": ""
  },
  {
   "property": "C105",
   "status": "proved",
   "theorems": [
    "Verif.Parts.Held.c105_extract",
    "Verif.Parts.Held.c105_fit_single",
    "Verif.Parts.Held.c105_pdf_extract",
    "Verif.Parts.Held.c105_pdf_fit",
    "Verif.Parts.Held.c105_exact",
    "Verif.Parts.Held.c105_reported",
    "Verif.Parts.Held.c105_package",
    "Verif.Parts.Held.c105_sign"
   ],
   "note": ""
  },
  {
   "property": "C106",
   "status": "proved",
   "theorems": [
    "Verif.Parts.Units.c106_extract",
    "Verif.Parts.Units.c106_fit",
    "Verif.Parts.Units.c106_defaults",
    "Verif.Parts.Units.c106_default_width",
    "Verif.Parts.Units.c106_find_qmax",
    "Verif.Parts.Units.c106_setdata",
    "Verif.Parts.Units.c106_resample",
    "Verif.Parts.Units.c106_ripples_value",
    "Verif.Parts.Units.c106_ripples_at",
    "Verif.Parts.Units.c106_ripples_jacobian",
    "Verif.Parts.Units.c106_package"
   ],
   "note": ""
  },
  {
   "property": "C107",
   "status": "proved",
   "theorems": [
    "Verif.Parts.Repeat.c107_objects",
    "Verif.Parts.Repeat.c107_untouched",
    "Verif.Parts.Repeat.c107_objects_single",
    "Verif.Parts.Repeat.c107_untouched_single",
    "Verif.Parts.Repeat.c107_shared",
    "Verif.Parts.Repeat.c107_repeat",
    "Verif.Parts.Repeat.c107_repeat_single",
    "Verif.Parts.Repeat.c107_again",
    "Verif.Parts.Repeat.c107_twice",
    "Verif.Parts.Repeat.c107_rejected"
   ],
   "note": ""
  },
  {
   "property": "C108",
   "status": "proved",
   "theorems": [
    "Verif.Parts.Order.c108_single",
    "Verif.Parts.Order.c108_order"
   ],
   "note": ""
  },
  {
   "property": "C109",
   "status": "proved",
   "theorems": [
    "Verif.Parts.Order.c109_extract",
    "Verif.Parts.Order.c109_fit",
    "Verif.Parts.Order.c109_pdf_extract",
    "Verif.Parts.Order.c109_pdf_fit",
    "Verif.Parts.Order.c109_resampled"
   ],
   "note": ""
  },
  {
   "property": "C110",
   "status": "proved",
   "theorems": [
    "Verif.Parts.Extract.c110_extracted",
    "Verif.Parts.Extract.c110_fitted",
    "Verif.Parts.Extract.c110_initial",
    "Verif.Parts.Extract.c110_joined"
   ],
   "note": ""
  },
  {
   "property": "C111",
   "status": "proved",
   "theorems": [
    "Verif.Text.c111_roundtrip",
    "Verif.Text.c111_shared",
    "Verif.Text.c111_writable",
    "Verif.Text.c111_no_baseline",
    "Verif.Text.c111_no_functions",
    "Verif.Text.c111_evaluator_not_found"
   ],
   "note": ""
  },
  {
   "property": "C112",
   "status": "proved",
   "theorems": [
    "Verif.Parts.Shared.c112_never_fit_stale",
    "Verif.Parts.Shared.c112_never_fit",
    "Verif.Parts.Shared.c112_residual",
    "Verif.Parts.Shared.c112_shared_baseline",
    "Verif.Parts.Shared.c112_data",
    "Verif.Parts.Shared.c112_others",
    "Verif.Parts.Shared.c112_copy",
    "Verif.Parts.Shared.c112_original",
    "Verif.Parts.Shared.c112_views"
   ],
   "note": ""
  },
  {
   "property": "C113",
   "status": "proved",
   "theorems": [
    "Verif.Text.c113_writable",
    "Verif.Text.c113_roundtrip"
   ],
   "note": ""
  },
  {
   "property": "C114",
   "status": "proved",
   "theorems": [
    "Verif.Parts.Refit.c114_settled",
    "Verif.Parts.Refit.c114_others",
    "Verif.Parts.Refit.c114_history",
    "Verif.Parts.Refit.c114_history_fixed",
    "Verif.Parts.Refit.c114_refused",
    "Verif.Parts.Refit.c114_dropped",
    "Verif.Parts.Refit.c114_after",
    "Verif.Parts.Refit.c114_holds",
    "Verif.Parts.Refit.c114_holds_fixed",
    "Verif.Parts.Refit.c114_again"
   ],
   "note": ""
  },
  {
   "property": "C115",
   "status": "proved",
   "theorems": [
    "Verif.Parts.Convert.c115_outcome",
    "Verif.Parts.Convert.c115_succeeds",
    "Verif.Parts.Convert.c115_misspelt",
    "Verif.Parts.Convert.c115_to_pwa",
    "Verif.Parts.Convert.c115_back",
    "Verif.Parts.Convert.c115_misread",
    "Verif.Parts.Convert.c115_halfway",
    "Verif.Parts.Convert.c115_objects",
    "Verif.Parts.Convert.c115_listed_twice"
   ],
   "note": ""
  },
  {
   "property": "C116",
   "status": "proved",
   "theorems": [
    "Verif.Cluster.c116_equal",
    "Verif.Cluster.c116_alike",
    "Verif.Cluster.c116_nan",
    "Verif.Cluster.c116_reset",
    "Verif.Cluster.c116_reset_not_new",
    "Verif.Cluster.c116_then_equal"
   ],
   "note": ""
  },
  {
   "property": "C117",
   "status": "proved",
   "theorems": [
    "Verif.Parts.Print.c117_model",
    "Verif.Parts.Print.c117_cluster",
    "Verif.Parts.Print.c117_extract",
    "Verif.Parts.Print.c117_fit_single",
    "Verif.Parts.Print.c117_extraction",
    "Verif.Parts.Print.c117_line",
    "Verif.Parts.Print.c117_peaks",
    "Verif.Parts.Print.c117_fitted_peaks",
    "Verif.Parts.Print.c117_converted"
   ],
   "note": ""
  },
  {
   "property": "C118",
   "status": "proved",
   "theorems": [
    "Verif.Parts.Build.c118_actualize",
    "Verif.Parts.Build.c118_pwa",
    "Verif.Parts.Build.c118_negative",
    "Verif.Parts.Build.c118_internal",
    "Verif.Parts.Build.c118_no_format",
    "Verif.Parts.Build.c118_mu_sigma_area",
    "Verif.Parts.Build.c118_retyped",
    "Verif.Parts.Build.c118_result"
   ],
   "note": ""
  },
  {
   "property": "C119",
   "status": "proved",
   "theorems": [
    "Verif.Text.c119_columns",
    "Verif.Text.c119_settings",
    "Verif.Text.c119_initial",
    "Verif.Text.c119_baseline",
    "Verif.Text.c119_functions",
    "Verif.Text.c119_result"
   ],
   "note": ""
  },
  {
   "property": "C120",
   "status": "proved",
   "theorems": [
    "Verif.Parts.Slice.c120_slice",
    "Verif.Parts.Slice.c120_backwards",
    "Verif.Parts.Slice.c120_forms",
    "Verif.Parts.Slice.c120_item",
    "Verif.Parts.Slice.c120_split",
    "Verif.Parts.Slice.c120_covariance"
   ],
   "note": ""
  },
  {
   "property": "C121",
   "status": "proved",
   "theorems": [
    "Verif.Parts.Animate.c121_probs",
    "Verif.Parts.Animate.c121_wrong",
    "Verif.Parts.Animate.c121_classes"
   ],
   "note": ""
  },
  {
   "property": "C122",
   "status": "proved",
   "theorems": [
    "Verif.Parts.Plot3d.c122_never",
    "Verif.Parts.Plot3d.c122_shown"
   ],
   "note": ""
  }
 ]
}