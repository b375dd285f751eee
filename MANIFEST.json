{
 "claims": [
  {
   "property": "C01",
   "status": "proved",
   "theorems": [
    "Verif.Props.c01_scaled_unscaled",
    "Verif.Props.c01_unscaled_scaled",
    "Verif.Props.c01_nominal_and_one_sigma",
    "Verif.Props.c01_scaled_constraint"
   ],
   "note": ""
  },
  {
   "property": "C02",
   "status": "proved",
   "theorems": [
    "Verif.Props.c02_aux_roundtrip",
    "Verif.Props.c02_poi_save_load",
    "Verif.Props.c02_poi_roundtrip_iff",
    "Verif.Props.c02_poi_roundtrip_fails",
    "Verif.Props.c02_np_roundtrip_iff",
    "Verif.Props.c02_np_loaded_roundtrip",
    "Verif.Props.c02_wrong_type_raises"
   ],
   "note": "holds exactly under the stated conditions; c02_poi_roundtrip_fails shows the unrestricted statement is false of the code (F01)"
  },
  {
   "property": "C03",
   "status": "proved",
   "theorems": [
    "Verif.Props.c03_set",
    "Verif.Props.c03_history",
    "Verif.Props.c03_known_or_keyError",
    "Verif.Props.c03_unscaled_roundtrip"
   ],
   "note": ""
  },
  {
   "property": "C04",
   "status": "proved",
   "theorems": [
    "Verif.Props.c04_dict_roundtrip",
    "Verif.Props.c04_dict_entries",
    "Verif.Props.c04_missing_key",
    "Verif.Props.c04_default_roundtrip_fails",
    "Verif.Props.c04_init_from_dict",
    "Verif.Props.c04_init_missing_poi",
    "Verif.Props.c04_init_shaped"
   ],
   "note": "c04_default_roundtrip_fails: export/import with the default flags of both functions do not match (F02)"
  },
  {
   "property": "C05",
   "status": "proved",
   "theorems": [
    "Verif.Props.c05_gradient"
   ],
   "note": ""
  },
  {
   "property": "C06",
   "status": "proved",
   "theorems": [
    "Verif.Props.c06_hessian",
    "Verif.Props.c06_hessian_exists",
    "Verif.Props.c06_zero_factor_fails"
   ],
   "note": "c06_zero_factor_fails: where a numerator factor is 0 the code gives nan (F03)"
  },
  {
   "property": "C07",
   "status": "proved",
   "theorems": [
    "Verif.Props.c07_remove_pois",
    "Verif.Props.c07_replace",
    "Verif.Props.c07_replace_succeeds",
    "Verif.Props.c07_norm_fails",
    "Verif.Props.c07_product_fails"
   ],
   "note": "c07_product_fails (F33) and c07_norm_fails (F34) are what the code does with products and with POIs that normalise a sample directly; F35 (two POIs in one call) is an example"
  },
  {
   "property": "C08",
   "status": "proved",
   "theorems": [
    "Verif.Props.c08_polynomial",
    "Verif.Props.c08_polynomial_exists",
    "Verif.Props.c08_kexp_reproduces",
    "Verif.Props.c08_setup_ok",
    "Verif.Props.c08_mixed_widths_fails",
    "Verif.Props.c08_words_fail"
   ],
   "note": "c08_kexp_reproduces assumes equally many variations of each sign for all samples and NPs; c08_mixed_widths_fails (F07) shows the code is wrong otherwise; c08_words_fail (F92) describes a defect"
  },
  {
   "property": "C09",
   "status": "proved",
   "theorems": [
    "Verif.Props.c09_nominal",
    "Verif.Props.c09_factor"
   ],
   "note": ""
  },
  {
   "property": "C10",
   "status": "proved",
   "theorems": [
    "Verif.Props.c10_positive",
    "Verif.Props.c10_cutoff"
   ],
   "note": ""
  },
  {
   "property": "C11",
   "status": "proved",
   "theorems": [
    "Verif.Props.c11_partition",
    "Verif.Props.c11_unique_channel",
    "Verif.Props.c11_poisson_first"
   ],
   "note": ""
  },
  {
   "property": "C12",
   "status": "proved",
   "theorems": [
    "Verif.Props.c12_counts",
    "Verif.Props.c12_counts_wrong",
    "Verif.Props.c12_aux",
    "Verif.Props.c12_default_aux"
   ],
   "note": "c12_counts_wrong (F36): wrong lengths raise NameError; c12_default_aux (F37): default auxiliary observables are unscaled nominal values although read as pulls"
  },
  {
   "property": "C13",
   "status": "proved",
   "theorems": [
    "Verif.Props.c13_roundtrip",
    "Verif.Props.c13_exact",
    "Verif.Props.c13_gaussian_never"
   ],
   "note": "c13_gaussian_never (F38)"
  },
  {
   "property": "C14",
   "status": "proved",
   "theorems": [
    "Verif.Props.c14_gradient",
    "Verif.Props.c14_gradient_offset",
    "Verif.Props.c14_gaussian_fails",
    "Verif.Props.c14_empty_norm_fails"
   ],
   "note": "holds without the Gaussian channels and with non-empty normalisations; c14_gaussian_fails (F04) and c14_empty_norm_fails (F05) show both restrictions are needed"
  },
  {
   "property": "C15",
   "status": "proved",
   "theorems": [
    "Verif.Props.c15_hessian",
    "Verif.Props.c15_hessian_exists"
   ],
   "note": ""
  },
  {
   "property": "C16",
   "status": "proved",
   "theorems": [
    "Verif.Props.c16_offset_cancels",
    "Verif.Props.c16_infinite",
    "Verif.Props.c16_zero_reference_fails"
   ],
   "note": "needs non-zero reference yields: c16_zero_reference_fails (F06)"
  },
  {
   "property": "C17",
   "status": "proved",
   "theorems": [
    "Verif.Props.c17_asimov_minimum",
    "Verif.Props.c17_asimov_minimum_offset"
   ],
   "note": ""
  },
  {
   "property": "C18",
   "status": "proved",
   "theorems": [
    "Verif.Props.c18_exact_derivatives",
    "Verif.Props.c18_linearised_derivatives",
    "Verif.Props.c18_lognormal_derivatives",
    "Verif.Props.c18_lognormal_excess",
    "Verif.Props.c18_symmetric",
    "Verif.Props.c18_psd",
    "Verif.Props.c18_profile_minimises",
    "Verif.Props.c18_well_conditioned",
    "Verif.Props.c18_nonzero_start_fails",
    "Verif.Props.c18_lognormal_gaussian_fails"
   ],
   "note": "positive semi-definiteness and minimality without the lognormal terms; c18_nonzero_start_fails (F09), c18_lognormal_gaussian_fails (F11)"
  },
  {
   "property": "C19",
   "status": "proved",
   "theorems": [
    "Verif.Props.c19_gaussian_exact",
    "Verif.Props.c19_gaussian_exact_offset",
    "Verif.Props.c19_second_iteration_worsens"
   ],
   "note": "c19_second_iteration_worsens (F10): the property holds for one step from the nominal NPs only"
  },
  {
   "property": "C20",
   "status": "proved",
   "theorems": [
    "Verif.Props.c20_is_profile_ratio",
    "Verif.Props.c20_nonneg",
    "Verif.Props.c20_exact",
    "Verif.Props.c20_failure_not_reported"
   ],
   "note": "c20_failure_not_reported (F13): failed fits are not reported; the scipy optimiser is an arbitrary run, c20_exact states the contract it needs"
  },
  {
   "property": "C21",
   "status": "proved",
   "theorems": [
    "Verif.Props.c21_bounds",
    "Verif.Props.c21_start",
    "Verif.Props.c21_start_within",
    "Verif.Props.c21_succeeds"
   ],
   "note": ""
  },
  {
   "property": "C22",
   "status": "proved",
   "theorems": [
    "Verif.Props.c22_accepts",
    "Verif.Props.c22_and",
    "Verif.Props.c22_laws",
    "Verif.Props.c22_fixed",
    "Verif.Props.c22_free",
    "Verif.Props.c22_unbounded_reported_fixed"
   ],
   "note": "c22_unbounded_reported_fixed (F12): a bound without ends accepts everything but is reported fixed"
  },
  {
   "property": "C23",
   "status": "proved",
   "theorems": [
    "Verif.Props.c23_tmu",
    "Verif.Props.c23_tmu_one_poi",
    "Verif.Props.c23_qmu",
    "Verif.Props.c23_ncp_available",
    "Verif.Props.c23_qmutilda",
    "Verif.Props.c23_zero_threshold_fails"
   ],
   "note": "scipy distributions are the mathematical ones; c23_zero_threshold_fails (F16)"
  },
  {
   "property": "C24",
   "status": "proved",
   "theorems": [
    "Verif.Props.c24_below",
    "Verif.Props.c24_at_threshold",
    "Verif.Props.c24_above"
   ],
   "note": ""
  },
  {
   "property": "C25",
   "status": "proved",
   "theorems": [
    "Verif.Props.c25_qmu_inverse",
    "Verif.Props.c25_qmutilda_inverse_iff",
    "Verif.Props.c25_qmutilda_inverse_fails",
    "Verif.Props.c25_tmu_inverse_fails"
   ],
   "note": "c25_qmutilda_inverse_iff gives the exact extent for q~_mu (F17); c25_tmu_inverse_fails (F18)"
  },
  {
   "property": "C26",
   "status": "proved",
   "theorems": [
    "Verif.Props.c26_ratio",
    "Verif.Props.c26_qmu",
    "Verif.Props.c26_qmutilda",
    "Verif.Props.c26_qmutilda_exceeds_one"
   ],
   "note": "c26_qmutilda_exceeds_one (F19): the CLb of q~_mu drops tmu_0"
  },
  {
   "property": "C27",
   "status": "proved",
   "theorems": [
    "Verif.Props.c27_midrank",
    "Verif.Props.c27_range_monotone",
    "Verif.Props.c27_order_independent",
    "Verif.Props.c27_edges",
    "Verif.Props.c27_saved_and_loaded",
    "Verif.Props.c27_too_few_refused",
    "Verif.Props.c27_truncated_load_biased",
    "Verif.Props.c27_unsorted_fails",
    "Verif.Props.c27_with_error"
   ],
   "note": "c27_unsorted_fails (F20): samples saved before sorting give wrong p-values when loaded; c27_truncated_load_biased (F21): loading a part of the stored samples keeps the smallest ones"
  },
  {
   "property": "C28",
   "status": "proved",
   "theorems": [
    "Verif.Props.c28_quantile",
    "Verif.Props.c28_monotone",
    "Verif.Props.c28_pv_of_quantile",
    "Verif.Props.c28_refused"
   ],
   "note": "c28_refused (F22): fraction 1 raises IndexError"
  },
  {
   "property": "C29",
   "status": "proved",
   "theorems": [
    "Verif.Props.c29_result_is_final",
    "Verif.Props.c29_later_jobs_only_load",
    "Verif.Props.c29_results_are_generated",
    "Verif.Props.c29_lock_excludes",
    "Verif.Props.c29_lock_holder_result",
    "Verif.Props.c29_no_mutual_exclusion",
    "Verif.Props.c29_finished_results_overwritten"
   ],
   "note": "holds for processes that start after the result exists; c29_no_mutual_exclusion (F23) and c29_finished_results_overwritten (F24) show that concurrent processes can generate the same hypothesis and overwrite a finished file"
  },
  {
   "property": "C30",
   "status": "proved",
   "theorems": [
    "Verif.Props.c30_stale_lock_respected",
    "Verif.Props.c30_recovery",
    "Verif.Props.c30_terminates",
    "Verif.Props.c30_truncated_file_is_fatal"
   ],
   "note": "c30_truncated_file_is_fatal (F25): a crash while writing the results file leaves a file later jobs fail on, even with break_locks"
  },
  {
   "property": "C31",
   "status": "proved",
   "theorems": [
    "Verif.Props.c31_returns_requested",
    "Verif.Props.c31_max_tries_ignored",
    "Verif.Props.c31_failing_never_stops",
    "Verif.Props.c31_returns_if_successful",
    "Verif.Props.c31_exception_propagates"
   ],
   "note": "c31_max_tries_ignored, c31_failing_never_stops (F26): the termination part of the property is false of the code"
  },
  {
   "property": "C32",
   "status": "proved",
   "theorems": [
    "Verif.Props.c32_loaded_roundtrip",
    "Verif.Props.c32_constructed_roundtrip",
    "Verif.Props.c32_predictions",
    "Verif.Props.c32_options_lost",
    "Verif.Props.c32_gaussian_lost",
    "Verif.Props.c32_formula_never_loads",
    "Verif.Props.c32_second_load_fails",
    "Verif.Props.c32_duplicate_sample_dropped",
    "Verif.Props.c32_numeric_name_fails",
    "Verif.Props.c32_gaussian_becomes_poisson",
    "Verif.Props.c32_gaussian_example"
   ],
   "note": "markup as decoded dictionaries (file syntax not modelled); c32_options_lost (F59), c32_gaussian_lost, c32_gaussian_becomes_poisson (F58), c32_formula_never_loads (F57), c32_second_load_fails, c32_duplicate_sample_dropped (F60), c32_numeric_name_fails describe the code outside the hypotheses"
  },
  {
   "property": "C33",
   "status": "proved",
   "theorems": [
    "Verif.Props.c33_predictions",
    "Verif.Props.c33_data",
    "Verif.Props.c33_likelihood",
    "Verif.Props.c33_refused",
    "Verif.Props.c33_original_corrupted",
    "Verif.Props.c33_common_impact_fails",
    "Verif.Props.c33_norms_not_compared"
   ],
   "note": "under Mergeable (same normalisation of samples of the same name, impacts at +-1, bin by bin in multi-bin channels), no cutoff; c33_original_corrupted, c33_common_impact_fails (F53), c33_norms_not_compared (F54) describe the code outside the hypotheses"
  },
  {
   "property": "C34",
   "status": "proved",
   "theorems": [
    "Verif.Props.c34_likelihood_ratio",
    "Verif.Props.c34_remove_nps",
    "Verif.Props.c34_totals",
    "Verif.Props.c34_likelihood",
    "Verif.Props.c34_linear_fails",
    "Verif.Props.c34_default_value_is_a_pull",
    "Verif.Props.c34_wildcard_value_ignored",
    "Verif.Props.c34_unknown_refused",
    "Verif.Props.c34_selected_twice_fails",
    "Verif.Props.c34_zero_norm_unusable"
   ],
   "note": "exponential mode without floor; c34_linear_fails (F49), c34_default_value_is_a_pull (F48), c34_wildcard_value_ignored (F51), c34_selected_twice_fails, c34_zero_norm_unusable (F50) describe the code outside the hypotheses"
  },
  {
   "property": "C35",
   "status": "proved",
   "theorems": [
    "Verif.Props.c35_equality",
    "Verif.Props.c35_hash",
    "Verif.Props.c35_lookup",
    "Verif.Props.c35_reordered_missed"
   ],
   "note": "c35_reordered_missed (F27): hypotheses listing the POIs in another order are equal but not found"
  },
  {
   "property": "C36",
   "status": "proved",
   "theorems": [
    "Verif.Props.c36_pars",
    "Verif.Props.c36_hypo",
    "Verif.Props.c36_saved_and_loaded",
    "Verif.Props.c36_range_lost"
   ],
   "note": "c36_range_lost (F29): parameter ranges become [0,0] on reload"
  },
  {
   "property": "C37",
   "status": "proved",
   "theorems": [
    "Verif.Props.c37_own_fits",
    "Verif.Props.c37_succeeds",
    "Verif.Props.c37_common_best_iff",
    "Verif.Props.c37_negative_tmu"
   ],
   "note": "c37_common_best_iff gives the exact extent; c37_negative_tmu (F28): set_global_best_fit has no effect on the statistics, which may be negative"
  },
  {
   "property": "C38",
   "status": "proved",
   "theorems": [
    "Verif.Props.c38_readable",
    "Verif.Props.c38_minimum",
    "Verif.Props.c38_maximum",
    "Verif.Props.c38_variation"
   ],
   "note": ""
  },
  {
   "property": "C39",
   "status": "proved",
   "theorems": [
    "Verif.Props.c39_channel_order",
    "Verif.Props.c39_aux_order",
    "Verif.Props.c39_missing_channel",
    "Verif.Props.c39_bins_checked",
    "Verif.Props.c39_names_checked",
    "Verif.Props.c39_missing_aux"
   ],
   "note": ""
  },
  {
   "property": "C40",
   "status": "proved",
   "theorems": [
    "Verif.Props.c40_order",
    "Verif.Props.c40_ordered_ok",
    "Verif.Props.c40_unknown_keyError",
    "Verif.Props.c40_append",
    "Verif.Props.c40_base_is_nominal_dict"
   ],
   "note": ""
  },
  {
   "property": "C41",
   "status": "proved",
   "theorems": [
    "Verif.Props.c41_np_norm_scales",
    "Verif.Props.c41_product_norm_fails"
   ],
   "note": "c41_product_norm_fails (F08): for other expressions of an NP the implicit impact is wrong"
  },
  {
   "property": "C42",
   "status": "proved",
   "theorems": [
    "Verif.Props.c42_model_keeps_pois",
    "Verif.Props.c42_fixed_pois_kept",
    "Verif.Props.c42_best_fit_within",
    "Verif.Props.c42_hypothesis_kept"
   ],
   "note": ""
  },
  {
   "property": "C43",
   "status": "proved",
   "theorems": [
    "Verif.Props.c43_no_free_poi",
    "Verif.Props.c43_stored",
    "Verif.Props.c43_consistent_iff",
    "Verif.Props.c43_point_is_last_evaluation"
   ],
   "note": "c43_point_is_last_evaluation (F14) shows the unrestricted statement is false of the code; c43_consistent_iff gives the exact extent"
  },
  {
   "property": "C44",
   "status": "proved",
   "theorems": [
    "Verif.Props.c44_second_fit_fails",
    "Verif.Props.c44_repeat"
   ],
   "note": "c44_second_fit_fails (F15): with no free POI the second call raises ValueError"
  },
  {
   "property": "C45",
   "status": "proved",
   "theorems": [
    "Verif.Props.c45_qmu_cls_decreasing",
    "Verif.Props.c45_qmutilda_cls_decreasing"
   ],
   "note": ""
  },
  {
   "property": "C46",
   "status": "proved",
   "theorems": [
    "Verif.Props.c46_qmu_integral",
    "Verif.Props.c46_qmutilda_integral",
    "Verif.Props.c46_qmu_pdf",
    "Verif.Props.c46_qmutilda_pdf"
   ],
   "note": ""
  },
  {
   "property": "C47",
   "status": "proved",
   "theorems": [
    "Verif.Props.c47_sampled_cls",
    "Verif.Props.c47_with_error",
    "Verif.Props.c47_missing"
   ],
   "note": ""
  },
  {
   "property": "C48",
   "status": "proved",
   "theorems": [
    "Verif.Props.c48_bands_ordered",
    "Verif.Props.c48_cls_bands",
    "Verif.Props.c48_all_orders"
   ],
   "note": ""
  },
  {
   "property": "C50",
   "status": "proved",
   "theorems": [
    "Verif.Props.c50_plr_data",
    "Verif.Props.c50_any_raster",
    "Verif.Props.c50_raster",
    "Verif.Props.c50_full_hypo_nps_lost"
   ],
   "note": "c50_full_hypo_nps_lost (F30)"
  },
  {
   "property": "C51",
   "status": "proved",
   "theorems": [
    "Verif.Props.c51_by_position",
    "Verif.Props.c51_same_order",
    "Verif.Props.c51_sizes",
    "Verif.Props.c51_other_order"
   ],
   "note": "c51_other_order (F31): other orders give wrong Asimov values silently"
  },
  {
   "property": "C52",
   "status": "proved",
   "theorems": [
    "Verif.Props.c52_is_filled",
    "Verif.Props.c52_then_readable",
    "Verif.Props.c52_only_pv_always_true"
   ],
   "note": "c52_only_pv_always_true (F32)"
  },
  {
   "property": "C49",
   "status": "proved",
   "theorems": [
    "Verif.Props.c49_cut",
    "Verif.Props.c49_pv_after_cut",
    "Verif.Props.c49_zero_limit_ignored",
    "Verif.Props.c49_zero_limit_fails"
   ],
   "note": "c49_zero_limit_ignored, c49_zero_limit_fails (F39): a limit of 0 is ignored"
  },
  {
   "property": "C53",
   "status": "proved",
   "theorems": [
    "Verif.Props.c53_floor",
    "Verif.Props.c53_floor_finite"
   ],
   "note": ""
  },
  {
   "property": "C54",
   "status": "proved",
   "theorems": [
    "Verif.Props.c54_limit_is_crossing",
    "Verif.Props.c54_limit_found",
    "Verif.Props.c54_cl_ignored",
    "Verif.Props.c54_few_points",
    "Verif.Props.c54_unordered_refused",
    "Verif.Props.c54_limit_with_errors"
   ],
   "note": "splines are a parameter satisfying the documented behaviour (Spec/Spline.lean, shown to be satisfiable); c54_cl_ignored (F40), c54_few_points"
  },
  {
   "property": "C55",
   "status": "proved",
   "theorems": [
    "Verif.Props.c55_interval_ends",
    "Verif.Props.c55_central_value",
    "Verif.Props.c55_single_crossing",
    "Verif.Props.c55_few_points",
    "Verif.Props.c55_levels_1d",
    "Verif.Props.c55_levels_2d"
   ],
   "note": "c55_few_points (F41): with fewer than 5 points the central value is a test statistic value"
  },
  {
   "property": "C56",
   "status": "proved",
   "theorems": [
    "Verif.Props.c56_tmu_exact",
    "Verif.Props.c56_qmu_exact",
    "Verif.Props.c56_qmu_cls_exact",
    "Verif.Props.c56_qmutilda_exact",
    "Verif.Props.c56_qmutilda_default_exact",
    "Verif.Props.c56_qmutilda_default_negative"
   ],
   "note": "c56_qmutilda_default_negative (F42): without the statistic at zero the p-value is too small for negative best fits"
  },
  {
   "property": "C57",
   "status": "proved",
   "theorems": [
    "Verif.Props.c57_history_independent",
    "Verif.Props.c57_as_first_use",
    "Verif.Props.c57_rebound_fails",
    "Verif.Props.c57_alternate_stays",
    "Verif.Props.c57_method_switched"
   ],
   "note": "scipy optimisers are an arbitrary deterministic function of the problem; c57_method_switched (F44), c57_rebound_fails (F47) and c57_alternate_stays describe what happens outside the hypotheses"
  },
  {
   "property": "C58",
   "status": "proved",
   "theorems": [
    "Verif.Props.c58_each_alone",
    "Verif.Props.c58_order_independent",
    "Verif.Props.c58_tmu_values",
    "Verif.Props.c58_qmu_values",
    "Verif.Props.c58_qmutilda_values",
    "Verif.Props.c58_recompute",
    "Verif.Props.c58_recompute_same"
   ],
   "note": "F42 and F45 (no tmu_0 for q~mu, unclipped tmu in rasters) are visible in the statements"
  },
  {
   "property": "C59",
   "status": "proved",
   "theorems": [
    "Verif.Props.c59_unknown_option",
    "Verif.Props.c59_best_fixed_fit",
    "Verif.Props.c59_fits_as_alone",
    "Verif.Props.c59_all_as_general",
    "Verif.Props.c59_user_bounds_ignored"
   ],
   "note": "c59_user_bounds_ignored (F46)"
  },
  {
   "property": "C60",
   "status": "proved",
   "theorems": [
    "Verif.Props.c60_significance_finite",
    "Verif.Props.c60_lost_yield_small",
    "Verif.Props.c60_small_pruned",
    "Verif.Props.c60_remaining_unchanged",
    "Verif.Props.c60_predictions",
    "Verif.Props.c60_lone_sample_kept",
    "Verif.Props.c60_channel_emptied"
   ],
   "note": "c60_channel_emptied (F52): a channel can lose all its samples"
  },
  {
   "property": "C61",
   "status": "proved",
   "theorems": [
    "Verif.Props.c61_pruned_iff",
    "Verif.Props.c61_prune_is_removal",
    "Verif.Props.c61_missing_impact_fails"
   ],
   "note": "c61_missing_impact_fails (F56)"
  },
  {
   "property": "C62",
   "status": "proved",
   "theorems": [
    "Verif.Props.c62_inverse",
    "Verif.Props.c62_none_iff",
    "Verif.Props.c62_no_covariance",
    "Verif.Props.c62_errors",
    "Verif.Props.c62_covariance_posdef",
    "Verif.Props.c62_correlation",
    "Verif.Props.c62_asimov_fisher",
    "Verif.Props.c62_negative_variance"
   ],
   "note": "Poisson channels; exact linear algebra; NPs are held fixed by the code"
  },
  {
   "property": "C63",
   "status": "proved",
   "theorems": [
    "Verif.Props.c63_setvals",
    "Verif.Props.c63_setvals_error",
    "Verif.Props.c63_blanks",
    "Verif.Props.c63_scaling_compounds",
    "Verif.Props.c63_list",
    "Verif.Props.c63_combinations",
    "Verif.Props.c63_combinations_count",
    "Verif.Props.c63_range",
    "Verif.Props.c63_log_never",
    "Verif.Props.c63_setranges",
    "Verif.Props.c63_setranges_error",
    "Verif.Props.c63_pois",
    "Verif.Props.c63_pois_unknown",
    "Verif.Props.c63_pois_misread"
   ],
   "note": "float/int/regular expressions are arbitrary functions; c63_scaling_compounds (F63), c63_log_never (F64), c63_pois_misread (F65), c63_setranges_error describe defects"
  },
  {
   "property": "C64",
   "status": "proved",
   "theorems": [
    "Verif.Props.c64_likelihood_ratio",
    "Verif.Props.c64_aux_width",
    "Verif.Props.c64_mean",
    "Verif.Props.c64_gaussian_covariance",
    "Verif.Props.c64_refused",
    "Verif.Props.c64_expected_nll",
    "Verif.Props.c64_gaussian_fails"
   ],
   "note": ""
  },
  {
   "property": "C65",
   "status": "proved",
   "theorems": [
    "Verif.Props.c65_predictions",
    "Verif.Props.c65_totals",
    "Verif.Props.c65_shapes_multiply",
    "Verif.Props.c65_parameters",
    "Verif.Props.c65_data",
    "Verif.Props.c65_lumi_first",
    "Verif.Props.c65_staterror_linear",
    "Verif.Props.c65_shape_then_norm",
    "Verif.Props.c65_same_sign_dropped",
    "Verif.Props.c65_same_sign_flipped",
    "Verif.Props.c65_empty_bin",
    "Verif.Props.c65_lumi_central"
   ],
   "note": ""
  },
  {
   "property": "C66",
   "status": "proved",
   "theorems": [
    "Verif.Props.c66_predictions",
    "Verif.Props.c66_nll",
    "Verif.Props.c66_norms",
    "Verif.Props.c66_yields",
    "Verif.Props.c66_every_point",
    "Verif.Props.c66_listed",
    "Verif.Props.c66_replaced_poi_in_expression_fails",
    "Verif.Props.c66_new_poi_hidden_fails"
   ],
   "note": ""
  },
  {
   "property": "C67",
   "status": "proved",
   "theorems": [
    "Verif.Props.c67_own_asimov",
    "Verif.Props.c67_full_hypothesis",
    "Verif.Props.c67_gaussian_any_nps"
   ],
   "note": ""
  },
  {
   "property": "C68",
   "status": "proved",
   "theorems": [
    "Verif.Props.c68_gaussian_exact_ratio"
   ],
   "note": ""
  },
  {
   "property": "C69",
   "status": "proved",
   "theorems": [
    "Verif.Props.c69_part_predictions",
    "Verif.Props.c69_likelihood",
    "Verif.Props.c69_channels"
   ],
   "note": ""
  },
  {
   "property": "C70",
   "status": "proved",
   "theorems": [
    "Verif.Props.c70_merge_files",
    "Verif.Props.c70_predictions",
    "Verif.Props.c70_likelihood",
    "Verif.Props.c70_arrays",
    "Verif.Props.c70_parameters_not_compared",
    "Verif.Props.c70_np_count",
    "Verif.Props.c70_options",
    "Verif.Props.c70_same_name_replaces",
    "Verif.Props.c70_bins_counted_repeatedly",
    "Verif.Props.c70_merged_object_unusable",
    "Verif.Props.c70_check_never_true"
   ],
   "note": ""
  },
  {
   "property": "C71",
   "status": "proved",
   "theorems": [
    "Verif.Props.c71_history",
    "Verif.Props.c71_first_run",
    "Verif.Props.c71_overwrite",
    "Verif.Props.c71_reused",
    "Verif.Props.c71_crash"
   ],
   "note": "usual runs: distinct names, hypotheses that list the same POIs in the same order, a new minimiser; c71_reused (F82) and c71_crash (F83) describe defects; writing other than of a whole file is only modelled as a file which cannot be read"
  },
  {
   "property": "C72",
   "status": "proved",
   "theorems": [
    "Verif.Props.c72_forced",
    "Verif.Props.c72_first_run",
    "Verif.Props.c72_with_file",
    "Verif.Props.c72_covers_exactly",
    "Verif.Props.c72_repeated_refused",
    "Verif.Props.c72_covers_more",
    "Verif.Props.c72_single_hypothesis",
    "Verif.Props.c72_three_pois"
   ],
   "note": "c72_repeated_refused, c72_covers_more (F84), c72_single_hypothesis (F85) describe defects"
  },
  {
   "property": "C73",
   "status": "proved",
   "theorems": [
    "Verif.Props.c73_gaussian_measurement",
    "Verif.Props.c73_measurement_unique",
    "Verif.Props.c73_statistics",
    "Verif.Props.c73_qmu_exact",
    "Verif.Props.c73_qmutilda_exact",
    "Verif.Props.c73_tmu_exact",
    "Verif.Props.c73_exact_limit",
    "Verif.Props.c73_limit",
    "Verif.Props.c73_succeeds",
    "Verif.Props.c73_scan_qmu",
    "Verif.Props.c73_scan_qmutilda",
    "Verif.Props.c73_scan_limit"
   ],
   "note": "optimiser and spline are parameters with stated contracts, shown to be satisfiable for every such model; the bounded statistic needs a best-fit value >= 0 (F42); without the assumption that the optimiser ends where it reports the minimum, c73_qmu_exact etc. need the stored best-fit value on the right side"
  },
  {
   "property": "C74",
   "status": "proved",
   "theorems": [
    "Verif.Props.c74_reload",
    "Verif.Props.c74_reload_exact",
    "Verif.Props.c74_no_options",
    "Verif.Props.c74_needs_data",
    "Verif.Props.c74_nps_likelihood",
    "Verif.Props.c74_small_impacts",
    "Verif.Props.c74_poi_selected_fails",
    "Verif.Props.c74_wildcard_values"
   ],
   "note": "Poisson channels (F58: Gaussian channels are not saved); nominal values, no zero variations, each auxiliary observable used by one NP; likelihood statement for patterns that select one NP; c74_needs_data (F86), c74_poi_selected_fails, c74_wildcard_values (F63) describe defects"
  },
  {
   "property": "C75",
   "status": "proved",
   "theorems": [
    "Verif.Props.c75_bound",
    "Verif.Props.c75_cls_bound",
    "Verif.Props.c75_returns",
    "Verif.Props.c75_exact",
    "Verif.Props.c75_not_conservative",
    "Verif.Props.c75_bound_attained"
   ],
   "note": "the random number generator is an ideal one (independent draws from the law of C64); the statistic is any measurable function of the dataset; c75_not_conservative (F87) describes a defect"
  },
  {
   "property": "C76",
   "status": "proved",
   "theorems": [
    "Verif.Props.c76_qmu",
    "Verif.Props.c76_qmutilda",
    "Verif.Props.c76_between",
    "Verif.Props.c76_none_only_bounds",
    "Verif.Props.c76_matches_calculator",
    "Verif.Props.c76_history_independent",
    "Verif.Props.c76_generate",
    "Verif.Props.c76_coverage",
    "Verif.Props.c76_bounds",
    "Verif.Props.c76_bounds_reversed",
    "Verif.Props.c76_stale_best",
    "Verif.Props.c76_first_free_poi",
    "Verif.Props.c76_ranges_break"
   ],
   "note": "debug output is off; the optimiser is an arbitrary function of the problem that evaluates the objective at least once; c76_bounds_reversed (F89), c76_stale_best (F90), c76_first_free_poi (F91) and c76_ranges_break (F88) describe defects"
  },
  {
   "property": "C77",
   "status": "proved",
   "theorems": [
    "Verif.Props.c77_channel_rows",
    "Verif.Props.c77_sample_row",
    "Verif.Props.c77_partition",
    "Verif.Props.c77_total",
    "Verif.Props.c77_errors",
    "Verif.Props.c77_expected_plain",
    "Verif.Props.c77_expected_profiled",
    "Verif.Props.c77_expected_missing",
    "Verif.Props.c77_calculator_asimov",
    "Verif.Props.c77_idempotent",
    "Verif.Props.c77_parameters_not_ignored"
   ],
   "note": "idempotence is proved for Gaussian channels and linear impacts, where profiling is exact (F10 otherwise); c77_parameters_not_ignored (F93) describes a defect"
  },
  {
   "property": "C78",
   "status": "proved",
   "theorems": [
    "Verif.Props.c78_parse",
    "Verif.Props.c78_parse_refused",
    "Verif.Props.c78_never_reloads",
    "Verif.Props.c78_merged",
    "Verif.Props.c78_refused"
   ],
   "note": "c78_never_reloads (F94) describes a defect; the positive theorem is about the output without the entry description"
  },
  {
   "property": "C79",
   "status": "proved",
   "theorems": [
    "Verif.Props.c79_best_fit",
    "Verif.Props.c79_gaussian",
    "Verif.Props.c79_asimov",
    "Verif.Props.c79_uncertainty",
    "Verif.Props.c79_uncertainty_blind",
    "Verif.Props.c79_failed_fit",
    "Verif.Props.c79_hypothesis_no_effect",
    "Verif.Props.c79_name_clash",
    "Verif.Props.c79_data_source",
    "Verif.Props.c79_asimov_option",
    "Verif.Props.c79_hypothesis",
    "Verif.Props.c79_regularize",
    "Verif.Props.c79_script",
    "Verif.Props.c79_ranges",
    "Verif.Props.c79_hypo_option",
    "Verif.Props.c79_options",
    "Verif.Props.c79_printed_best_fit"
   ],
   "note": "conditional on the optimiser contract GoodFit (scipy is a parameter); c79_regularize, c79_uncertainty_blind, c79_printed_best_fit, c79_asimov_option (last part) and c79_name_clash (F95-F99) describe defects"
  },
  {
   "property": "C80",
   "status": "proved",
   "theorems": [
    "Verif.Props.c80_bands",
    "Verif.Props.c80_fits_file",
    "Verif.Props.c80_refused_options",
    "Verif.Props.c80_too_few",
    "Verif.Props.c80_file_names",
    "Verif.Props.c80_sampling_cls",
    "Verif.Props.c80_sampling_clsb",
    "Verif.Props.c80_asymptotic",
    "Verif.Props.c80_jobs",
    "Verif.Props.c80_limit_from_jobs",
    "Verif.Props.c80_results_file",
    "Verif.Props.c80_generation",
    "Verif.Props.c80_samplers_fail",
    "Verif.Props.c80_never",
    "Verif.Props.c80_background",
    "Verif.Props.c80_sethypo",
    "Verif.Props.c80_single_point",
    "Verif.Props.c80_cl_ignored",
    "Verif.Props.c80_statistic",
    "Verif.Props.c80_rerun"
   ],
   "note": "scipy splines are a parameter with the contract of C54; c80_never, c80_samplers_fail (F100), c80_background (F101), c80_sethypo (F102), c80_single_point (F103), c80_cl_ignored (F104) and c80_statistic (F105) describe defects"
  },
  {
   "property": "C81",
   "status": "proved",
   "theorems": [
    "Verif.Props.c81_load_jobs",
    "Verif.Props.c81_load_cls",
    "Verif.Props.c81_reload_same",
    "Verif.Props.c81_load_incomplete",
    "Verif.Props.c81_load_all_toys",
    "Verif.Props.c81_create",
    "Verif.Props.c81_generate_fails"
   ],
   "note": "the file names are assumed different (F88/C56: they need not be); c81_load_incomplete and c81_generate_fails (F106) describe defects"
  },
  {
   "property": "C82",
   "status": "proved",
   "theorems": [
    "Verif.Props.c82_resample",
    "Verif.Props.c82_resample_refines",
    "Verif.Props.c82_resample_refused",
    "Verif.Props.c82_best_fit"
   ],
   "note": "scipy splines and minimiser are parameters with their documented behaviour"
  },
  {
   "property": "C83",
   "status": "proved",
   "theorems": [
    "Verif.Props.c83_clone",
    "Verif.Props.c83_clone_twin",
    "Verif.Props.c83_cutoff_dropped",
    "Verif.Props.c83_gauss_clone_fails",
    "Verif.Props.c83_independent",
    "Verif.Props.c83_tools_through",
    "Verif.Props.c83_remove_clone",
    "Verif.Props.c83_remove_in_place",
    "Verif.Props.c83_remove_alike",
    "Verif.Props.c83_shared_pois",
    "Verif.Props.c83_impacts_never"
   ],
   "note": "the heap holds the objects that the code writes to; normalisation, expression and bin objects are never written to and are values; c83_gauss_clone_fails (F107), c83_cutoff_dropped (F108) and c83_impacts_never (F109) describe defects"
  },
  {
   "property": "C84",
   "status": "proved",
   "theorems": [
    "Verif.Props.c84_numeric_order",
    "Verif.Props.c84_numeric_textual",
    "Verif.Props.c84_numeric_sort",
    "Verif.Props.c84_merge",
    "Verif.Props.c84_named_files",
    "Verif.Props.c84_missing_ignored",
    "Verif.Props.c84_star_refused"
   ],
   "note": "file search and word characters are parameters; c84_missing_ignored (F110), c84_star_refused (F111) and c84_numeric_textual (F112) describe defects"
  },
  {
   "property": "C85",
   "status": "proved",
   "theorems": [
    "Verif.Props.c85_positions_linear",
    "Verif.Props.c85_positions_log",
    "Verif.Props.c85_log_from_one",
    "Verif.Props.c85_positions_list",
    "Verif.Props.c85_commands",
    "Verif.Props.c85_aligned",
    "Verif.Props.c85_bands",
    "Verif.Props.c85_bands_positions",
    "Verif.Props.c85_total",
    "Verif.Props.c85_complete",
    "Verif.Props.c85_not_a_number",
    "Verif.Props.c85_band_not_a_number"
   ],
   "note": "the text of a floating-point number and the reading of numbers are parameters; plots and ROOT output are not modelled; F113-F116 are parts of c85_positions_log, c85_log_from_one, c85_positions_list, c85_bands_positions and c85_band_not_a_number"
  },
  {
   "property": "C86",
   "status": "proved",
   "theorems": [
    "Verif.Props.c86_entries",
    "Verif.Props.c86_default",
    "Verif.Props.c86_epsilon",
    "Verif.Props.c86_shares",
    "Verif.Props.c86_additive",
    "Verif.Props.c86_shared_norm",
    "Verif.Props.c86_reproduces",
    "Verif.Props.c86_supplied",
    "Verif.Props.c86_model"
   ],
   "note": "the expected yield of a bin is an arbitrary function of the variables (RooFit is not modelled); c86_shared_norm (F117) describes a defect"
  },
  {
   "property": "C87",
   "status": "proved",
   "theorems": [
    "Verif.Props.c87_pack",
    "Verif.Props.c87_error",
    "Verif.Props.c87_exact",
    "Verif.Props.c87_readable",
    "Verif.Props.c87_left_out_width",
    "Verif.Props.c87_table"
   ],
   "note": "rounding is a parameter with a relative bound; c87_left_out_width (F120) describes a defect"
  },
  {
   "property": "C88",
   "status": "proved",
   "theorems": [
    "Verif.Props.c88_binning_items",
    "Verif.Props.c88_binning_plus",
    "Verif.Props.c88_binning_plain",
    "Verif.Props.c88_binning_log",
    "Verif.Props.c88_binning_refused",
    "Verif.Props.c88_channels",
    "Verif.Props.c88_channel_text",
    "Verif.Props.c88_default_sample",
    "Verif.Props.c88_samples",
    "Verif.Props.c88_samples_named_channel",
    "Verif.Props.c88_single_name",
    "Verif.Props.c88_found_samples",
    "Verif.Props.c88_written",
    "Verif.Props.c88_norm",
    "Verif.Props.c88_validation",
    "Verif.Props.c88_validation_two_empty",
    "Verif.Props.c88_variations",
    "Verif.Props.c88_deviation"
   ],
   "note": "reading of numbers is a parameter; c88_samples_named_channel (F118), c88_single_name (F119), the last part of c88_binning_plain (F121), c88_validation_two_empty (F122) and the first part of c88_found_samples describe defects"
  },
  {
   "property": "C89",
   "status": "proved",
   "theorems": [
    "Verif.Props.c89_best_fit",
    "Verif.Props.c89_pvalue",
    "Verif.Props.c89_two_sided",
    "Verif.Props.c89_cls",
    "Verif.Props.c89_limit",
    "Verif.Props.c89_exact_limit",
    "Verif.Props.c89_toys"
   ],
   "note": "real arithmetic; the optimiser is assumed to find the minima (GoodUse); c89_limit counts only the datasets for which C73 says that a limit is reported; the toys of the code follow the law only under the conditions of c89_toys (F66, F67)"
  },
  {
   "property": "C90",
   "status": "proved",
   "theorems": [
    "Verif.Props.c90_needs",
    "Verif.Props.c90_refused",
    "Verif.Props.c90_bins",
    "Verif.Props.c90_qmu_values",
    "Verif.Props.c90_qmutilda_values",
    "Verif.Props.c90_qmu_reference",
    "Verif.Props.c90_qmutilda_reference",
    "Verif.Props.c90_pv",
    "Verif.Props.c90_qmu_expected",
    "Verif.Props.c90_pv_expected",
    "Verif.Props.c90_other_statistic",
    "Verif.Props.c90_qmu_succeeds"
   ],
   "note": "matplotlib and the numerical integration are modelled by what they compute; infinite statistics (stored p-values 0 or 1) are not modelled; c90_qmutilda_values includes F17, c90_other_statistic describes F123"
  },
  {
   "property": "C91",
   "status": "proved",
   "theorems": [
    "Verif.Props.c91_red",
    "Verif.Props.c91_curves",
    "Verif.Props.c91_symmetric",
    "Verif.Props.c91_black",
    "Verif.Props.c91_rejects"
   ],
   "note": "drawing, titles, files and inversion plots are not modelled; c91_curves includes F124"
  },
  {
   "property": "C92",
   "status": "proved",
   "theorems": [
    "Verif.Props.c92_limit_curve",
    "Verif.Props.c92_error_band",
    "Verif.Props.c92_no_error",
    "Verif.Props.c92_bands",
    "Verif.Props.c92_bands_many",
    "Verif.Props.c92_bands_toys",
    "Verif.Props.c92_table",
    "Verif.Props.c92_verbosity_zero",
    "Verif.Props.c92_table_missing",
    "Verif.Props.c92_impacts_aligned",
    "Verif.Props.c92_impacts_number"
   ],
   "note": "axes, labels, number formats, the text of verbosity > 2 and p-values stored as pairs in the table are not modelled; F125-F127 are theorems"
  },
  {
   "property": "C93",
   "status": "proved",
   "theorems": [
    "Verif.Props.c93_json",
    "Verif.Props.c93_yaml",
    "Verif.Props.c93_unnumpy_means",
    "Verif.Props.c93_unnumpy_json",
    "Verif.Props.c93_unnumpy_yaml",
    "Verif.Props.c93_flavor",
    "Verif.Props.c93_save_load",
    "Verif.Props.c93_save_load_yaml",
    "Verif.Props.c93_save_fails",
    "Verif.Props.c93_unknown_flavor",
    "Verif.Props.c93_save_crash",
    "Verif.Props.c93_dump_markup",
    "Verif.Props.c93_data",
    "Verif.Props.c93_raster_yaml",
    "Verif.Props.c93_gaussian"
   ],
   "note": "what json and PyYAML do with each kind of object is part of the trusted model; texts, keys that are not strings and reading in another flavour are not modelled"
  },
  {
   "property": "C94",
   "status": "proved",
   "theorems": [
    "Verif.Props.c94_increments",
    "Verif.Props.c94_ratio",
    "Verif.Props.c94_pvalue",
    "Verif.Props.c94_part_asimov"
   ],
   "note": "no variations given explicitly, standard impacts, positive Asimov and reference yields in Poisson bins, symmetric and non-negative Gaussian Hessians; minima are exact ones, as for C68"
  },
  {
   "property": "C95",
   "status": "proved",
   "theorems": [
    "Verif.Props.c95_predictions",
    "Verif.Props.c95_increments",
    "Verif.Props.c95_ratio",
    "Verif.Props.c95_pvalue"
   ],
   "note": "no variations given explicitly, standard impacts, positive Asimov and reference yields in Poisson bins, symmetric and non-negative Gaussian Hessians, which stay as they are; minima are exact ones"
  }
 ]
}