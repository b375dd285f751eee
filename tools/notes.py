STATUS={}
NOTES={
'C02':'holds exactly under the stated conditions; c02_poi_roundtrip_fails shows the unrestricted statement is false of the code (F01)',
'C04':'c04_default_roundtrip_fails: export/import with the default flags of both functions do not match (F02)',
'C06':'c06_zero_factor_fails: where a numerator factor is 0 the code gives nan (F03)',
'C14':'holds without the Gaussian channels and with non-empty normalisations; c14_gaussian_fails (F04) and c14_empty_norm_fails (F05) show both restrictions are needed',
'C08':'c08_kexp_reproduces assumes equally many variations of each sign for all samples and NPs; c08_mixed_widths_fails (F07) shows the code is wrong otherwise; c08_words_fail (F92) describes a defect',
'C18':'positive semi-definiteness and minimality without the lognormal terms; c18_nonzero_start_fails (F09), c18_lognormal_gaussian_fails (F11)',
'C19':'c19_second_iteration_worsens (F10): the property holds for one step from the nominal NPs only',
'C41':'c41_product_norm_fails (F08): for other expressions of an NP the implicit impact is wrong',
'C16':'needs non-zero reference yields: c16_zero_reference_fails (F06)',
'C22':'c22_unbounded_reported_fixed (F12): a bound without ends accepts everything but is reported fixed',
'C20':'c20_failure_not_reported (F13): failed fits are not reported; the scipy optimiser is an arbitrary run, c20_exact states the contract it needs',
'C43':'c43_point_is_last_evaluation (F14) shows the unrestricted statement is false of the code; c43_consistent_iff gives the exact extent',
'C44':'c44_second_fit_fails (F15): with no free POI the second call raises ValueError',
'C23':'scipy distributions are the mathematical ones; c23_zero_threshold_fails (F16)',
'C25':'c25_qmutilda_inverse_iff gives the exact extent for q~_mu (F17); c25_tmu_inverse_fails (F18)',
'C26':'c26_qmutilda_exceeds_one (F19): the CLb of q~_mu drops tmu_0',
'C27':'c27_unsorted_fails (F20): samples saved before sorting give wrong p-values when loaded; c27_truncated_load_biased (F21): loading a part of the stored samples keeps the smallest ones',
'C28':'c28_refused (F22): fraction 1 raises IndexError',
'C29':'holds for processes that start after the result exists; c29_no_mutual_exclusion (F23) and c29_finished_results_overwritten (F24) show that concurrent processes can generate the same hypothesis and overwrite a finished file',
'C30':'c30_truncated_file_is_fatal (F25): a crash while writing the results file leaves a file later jobs fail on, even with break_locks',
'C31':'c31_max_tries_ignored, c31_failing_never_stops (F26): the termination part of the property is false of the code',
'C35':'c35_reordered_missed (F27): hypotheses listing the POIs in another order are equal but not found',
'C36':'c36_range_lost (F29): parameter ranges become [0,0] on reload',
'C37':'c37_common_best_iff gives the exact extent; c37_negative_tmu (F28): set_global_best_fit has no effect on the statistics, which may be negative',
'C50':'c50_full_hypo_nps_lost (F30)',
'C51':'c51_other_order (F31): other orders give wrong Asimov values silently',
'C52':'c52_only_pv_always_true (F32)',
'C07':'c07_product_fails (F33) and c07_norm_fails (F34) are what the code does with products and with POIs that normalise a sample directly; F35 (two POIs in one call) is an example',
'C12':'c12_counts_wrong (F36): wrong lengths raise NameError; c12_default_aux (F37): default auxiliary observables are unscaled nominal values although read as pulls',
'C13':'c13_gaussian_never (F38)',
'C49':'c49_zero_limit_ignored, c49_zero_limit_fails (F39): a limit of 0 is ignored',
'C54':"splines are a parameter satisfying the documented behaviour (Spec/Spline.lean, shown to be satisfiable); c54_cl_ignored (F40), c54_few_points",
'C55':"c55_few_points (F41): with fewer than 5 points the central value is a test statistic value",
'C56':'c56_qmutilda_default_negative (F42): without the statistic at zero the p-value is too small for negative best fits',
'C57':'scipy optimisers are an arbitrary deterministic function of the problem; c57_method_switched (F44), c57_rebound_fails (F47) and c57_alternate_stays describe what happens outside the hypotheses',
'C58':'F42 and F45 (no tmu_0 for q~mu, unclipped tmu in rasters) are visible in the statements',
'C59':'c59_user_bounds_ignored (F46)',
'C34':'exponential mode without floor; c34_linear_fails (F49), c34_default_value_is_a_pull (F48), c34_wildcard_value_ignored (F51), c34_selected_twice_fails, c34_zero_norm_unusable (F50) describe the code outside the hypotheses',
'C60':'c60_channel_emptied (F52): a channel can lose all its samples',
'C61':'c61_missing_impact_fails (F56)',
'C33':'under Mergeable (same normalisation of samples of the same name, impacts at +-1, bin by bin in multi-bin channels), no cutoff; c33_original_corrupted, c33_common_impact_fails (F53), c33_norms_not_compared (F54) describe the code outside the hypotheses',
'C32':'markup as decoded dictionaries (file syntax not modelled); c32_options_lost (F59), c32_gaussian_lost, c32_gaussian_becomes_poisson (F58), c32_formula_never_loads (F57), c32_second_load_fails, c32_duplicate_sample_dropped (F60), c32_numeric_name_fails describe the code outside the hypotheses',
'C62':'Poisson channels; exact linear algebra; NPs are held fixed by the code',
'C63':'float/int/regular expressions are arbitrary functions; c63_scaling_compounds (F63), c63_log_never (F64), c63_pois_misread (F65), c63_setranges_error describe defects',
'C71':'usual runs: distinct names, hypotheses that list the same POIs in the same order, a new minimiser; c71_reused (F82) and c71_crash (F83) describe defects; writing other than of a whole file is only modelled as a file which cannot be read',
'C73':'optimiser and spline are parameters with stated contracts, shown to be satisfiable for every such model; the bounded statistic needs a best-fit value >= 0 (F42); without the assumption that the optimiser ends where it reports the minimum, c73_qmu_exact etc. need the stored best-fit value on the right side',
'C72':'c72_repeated_refused, c72_covers_more (F84), c72_single_hypothesis (F85) describe defects',
'C74':'Poisson channels (F58: Gaussian channels are not saved); nominal values, no zero variations, each auxiliary observable used by one NP; likelihood statement for patterns that select one NP; c74_needs_data (F86), c74_poi_selected_fails, c74_wildcard_values (F63) describe defects',
'C75':'the random number generator is an ideal one (independent draws from the law of C64); the statistic is any measurable function of the dataset; c75_not_conservative (F87) describes a defect',
'C76':'debug output is off; the optimiser is an arbitrary function of the problem that evaluates the objective at least once; c76_bounds_reversed (F89), c76_stale_best (F90), c76_first_free_poi (F91) and c76_ranges_break (F88) describe defects',
'C79':'conditional on the optimiser contract GoodFit (scipy is a parameter); c79_regularize, c79_uncertainty_blind, c79_printed_best_fit, c79_asimov_option (last part) and c79_name_clash (F95-F99) describe defects',
'C78':'c78_never_reloads (F94) describes a defect; the positive theorem is about the output without the entry description',
'C77':'idempotence is proved for Gaussian channels and linear impacts, where profiling is exact (F10 otherwise); c77_parameters_not_ignored (F93) describes a defect',
'C80':'scipy splines are a parameter with the contract of C54; c80_never, c80_samplers_fail (F100), c80_background (F101), c80_sethypo (F102), c80_single_point (F103), c80_cl_ignored (F104) and c80_statistic (F105) describe defects',
'C81':'the file names are assumed different (F88/C56: they need not be); c81_load_incomplete and c81_generate_fails (F106) describe defects',
'C82':'scipy splines and minimiser are parameters with their documented behaviour',
'C83':'the heap holds the objects that the code writes to; normalisation, expression and bin objects are never written to and are values; c83_gauss_clone_fails (F107), c83_cutoff_dropped (F108) and c83_impacts_never (F109) describe defects',
'C84':'file search and word characters are parameters; c84_missing_ignored (F110), c84_star_refused (F111) and c84_numeric_textual (F112) describe defects',
'C85':'the text of a floating-point number and the reading of numbers are parameters; plots and ROOT output are not modelled; F113-F116 are parts of c85_positions_log, c85_log_from_one, c85_positions_list, c85_bands_positions and c85_band_not_a_number',
'C86':'the expected yield of a bin is an arbitrary function of the variables (RooFit is not modelled); c86_shared_norm (F117) describes a defect',
'C87':'rounding is a parameter with a relative bound; c87_left_out_width (F120) describes a defect',
'C88':'reading of numbers is a parameter; c88_samples_named_channel (F118), c88_single_name (F119), the last part of c88_binning_plain (F121), c88_validation_two_empty (F122) and the first part of c88_found_samples describe defects',
'C89':'real arithmetic; the optimiser is assumed to find the minima (GoodUse); c89_limit counts only the datasets for which C73 says that a limit is reported; the toys of the code follow the law only under the conditions of c89_toys (F66, F67)',
'C90':'matplotlib and the numerical integration are modelled by what they compute; infinite statistics (stored p-values 0 or 1) are not modelled; c90_qmutilda_values includes F17, c90_other_statistic describes F123',
'C91':'drawing, titles, files and inversion plots are not modelled; c91_curves includes F124',
'C92':'axes, labels, number formats, the text of verbosity > 2 and p-values stored as pairs in the table are not modelled; F125-F127 are theorems',
'C93':'what json and PyYAML do with each kind of object is part of the trusted model; texts, keys that are not strings and reading in another flavour are not modelled',
'C94':'no variations given explicitly, standard impacts, positive Asimov and reference yields in Poisson bins, symmetric and non-negative Gaussian Hessians; minima are exact ones, as for C68',
'C95':'no variations given explicitly, standard impacts, positive Asimov and reference yields in Poisson bins, symmetric and non-negative Gaussian Hessians, which stay as they are; minima are exact ones',
}
