# DESIGN: a Lean 4 model of fastprof

## Method

fastprof (Python, numpy, scipy) is modelled function by function in Lean 4 with selected Mathlib modules.

* `lean/Verif/Model/*.lean`: the model. Each definition cites the file and lines of `/repo` it models and states its
  simplifications.
* `lean/Verif/Spec/*.lean`: specifications that do not refer to the model (normal distribution, splines, ...).
* `lean/Verif/Props/*.lean`: the property theorems (`cNN_...` belongs to property `CNN` of `properties.jsonl`), with the
  small specification they use and examples showing that their hypotheses are met by non-trivial cases.
* `lean/Verif/Lemmas/*.lean`: helper lemmas and concrete demonstration models.
* `seeded/LOG.jsonl`: wrong programs (edited model definitions) and the theorems that reject them.
* `tools/`: scripts that generate `properties.jsonl`, `MANIFEST.json`, `LOG.jsonl` and the table below.

Where the code does not honour a property a user would expect, the property is stated with the restriction under which
it holds, and the defect is proved as a separate theorem (names ending in `_fails`, `_never`, `_lost`, ...): these are the
findings F01, F02, ... listed at the end. Such theorems are statements about the code as it is, with concrete witnesses.

## Trusted base

* Lean 4.33.0's kernel and the axioms `propext`, `Classical.choice`, `Quot.sound`; no theorem uses any other axiom
  (vcheck prints them). No `native_decide`, `bv_decide`, no own axioms.
* The reading of the code: nothing was executed; the theorems are about the model, which was written by hand from the
  source.
* Numbers: Python/numpy numbers are exact reals `ℝ` (or an arbitrary ordered field where only order and arithmetic
  matter). Rounding, overflow, signed zeros and denormals are not modelled. Where a finding is about `nan`/`inf`, numbers are
  `Flt` (finite real, infinities, nan; `Model/Flt.lean`); otherwise operations that would produce them are error values or
  excluded by a hypothesis (e.g. positive yields under a logarithm).
* Python dicts are insertion-ordered association lists (`Model/Dict.lean`); exceptions are values of `Except PyErr`.
  `PyErr.unmodelled` marks inputs outside the model. Object identity and aliasing are modelled only where the code mutates
  shared objects (`Reparam`, `Merge`); elsewhere objects are values. Python's recursion limit is a fuel parameter where the
  code recurses on data that may be cyclic (`Reparam`, `Markup`, `CmdLine`), and absent otherwise.
* `numpy.linalg.inv/det`: exact linear algebra (`LinAlgError` exactly on singular matrices). Broadcasting of length-1 arrays
  is not modelled (lengths are checked or assumed equal).
* `scipy.stats.norm/chi2`: Mathlib's Gaussian measure (`Spec/Dist.lean`). `InterpolatedUnivariateSpline`: an
  arbitrary interpolation satisfying the contract `SplineLib.Correct` (`Spec/Spline.lean`; shown satisfiable).
* `scipy.optimize`: what the optimiser did (sequence of evaluated points, result, success) is arbitrary; in C57-C59 it is an
  arbitrary deterministic function of the problem.
* Files: the text of JSON/YAML files is not modelled, only the decoded dictionaries (`MVal`). The lock protocol (C29, C30) is a
  transition system with atomic `exists`/`open`/`remove`/`save` steps and crashes between any two of them.
* `float()`, `int()` and regular expressions on the command line are arbitrary functions (C63).
* Random numbers: toys are an arbitrary stream of outcomes (C31), samples arbitrary lists; in C64, C75 and C76 they are ideal independent draws from
  the distributions asked for.

## What is modelled

| file of `/repo/src` | modelled | not modelled |
|---|---|---|
| `fastprof/base.py` | `load_field`, markup of POIs, aux. observables, NPs, scaling, `ModelNP`, `generate_aux` (as a distribution) | `guess_flavor`, text dump/parse |
| `fastprof/core.py` | `Parameters`; `Model`: construction of internal arrays, `k_exp`, `cut_k_exp`, `n_exp`, `tot_bin_exp`, `nll`, `gradient`, `hessian`, covariance, errors, correlations, `linear_impacts`, Asimov data, `generate_data` (as a distribution), markup; `Data` | string output, plotting, `set_constraint` and `Parameters.set_from_aux`/`partial_dict` (raise `AttributeError`/`NameError`) |
| `fastprof/channels.py`, `sample.py`, `norms.py`, `expressions.py` | all classes that load; `Formula` only to the extent that loading it fails | the evaluation of `Formula`, string output |
| `fastprof/minimizers.py` | `NPMinimizer`, `POIMinimizer`, `OptiMinimizer` | `ScanMinimizer`, debug output |
| `fastprof/model_tools.py` | `ModelMerger`, `ChannelMerger`, `ModelReparam` (without regular expressions for the POIs to remove), `NPPruner`, `SamplePruner`, `ParBound` | see the table for the other tools |
| `fastprof/test_statistics.py`, `calculators.py` | all statistics and calculators | text output |
| `fastprof/sampling.py`, `samplers.py` | distributions, CLs, bands, lock protocol, `Sampler.generate`, `OptiSampler` | random numbers, debug CSV, `ScanSampler` and `LimitSampler` (raise `AttributeError`) |
| `fastprof/fit_data.py`, `scans.py` | `FitParameter`, `FitResult`, `PLRData`, `Raster`, hypotheses; scans, limits, intervals, resampling, 2D best fit | plotting, contours, `print` |
| `fastprof_utils/reparam_model.py` | the changes of the model (146-194) | parsing of the options |
| `fastprof_utils/merge_models.py` | input files, sorting, loading, sample pruning, merging, saving | messages; `glob` is a parameter |
| `fastprof_utils/iterate.py`, `collect_results.py` | positions, commands, collection, content of the output file | messages, ROOT output, plots, infinite and undefined numbers |
| `fastprof_import/convert_ws.py` | option parsers (binning, channels, samples, variations), samples of a channel, yields and impacts, packing, selection of the samples and validation data that are written | RooFit (PDF integrals, fits, datasets, ranges of variables), identification of the constraint terms, file output |
| `fastprof_utils/prune_model.py` | the whole script, on decoded files | file names, messages |
| `fastprof_utils/merge_channels.py` | the whole script (option text, merges, both output files), on decoded files | file names, messages; the position of the `description` entry in the output |
| `fastprof_utils/fit_model.py` | the whole script, on decoded files: options, model, dataset, fit, report, test of a hypothesis | file names, texts printed (except the values printed about the hypothesis), plots, timing |
| `fastprof_utils/compute_limits.py` | the run on decoded files: rasters of the fits file, options, samplers, samples on disk, p-values, bands and limits, results file | selection of the dataset, `--bounds` parser, plots and printout, `--debug` |
| `fastprof_utils/compute_fast_limits.py`, `poi_scan.py` | computing, storing and reusing the raster | option parsing other than the hypotheses, output of the limits |
| `fastprof_utils/tools.py` | `process_setvals`, `process_setval_list`, `process_setranges`, `process_pois`, range parsing | messages |
| `fastprof_import/convert_pyhf_json.py` | the conversion of decoded workspaces to markup | measurement index counted from the end, missing or ill-typed entries, YAML output, validation data |
| `fastprof/plot_tools.py`, and object identities | `PlotImpacts.impacts` up to its first fit; `Model.clone`, channel and sample clones, `remove_nps` with `clone_model`, on a heap (Model/Clone.lean) | plotting |
| `fastprof_utils/dump_samples.py` | the whole script: options, values drawn, histogram, reference curve | drawing; the numerical integration is the integral |
| `fastprof_utils/plot_valid.py` | loading of the validation file, choice of channel, sample, bins and NPs, points and curves of each panel | drawing, titles, files, inversion plots |
| limit plots, `plot_bands`, `Raster.print`, `PlotImpacts` | points, areas and their order, colours, rows and columns, heights | axes, labels, number formats |
| `Serializable.save/load/unnumpy/guess_flavor` | kinds of Python objects, what JSON and YAML make of them, contents of files, failures and interruptions | the text, other keys than strings, reading in another flavour |
| other command scripts and importers | - | everything not named in the table |

## Plan and result per property

| id | property | what is modelled, how it is proved | status | theorems |
|---|---|---|---|---|
| C01 | Nuisance-parameter scaling is a bijection | `ModelNP` record, scaled/unscaled values; field arithmetic. | proved | `c01_scaled_unscaled`, `c01_unscaled_scaled`, `c01_nominal_and_one_sigma`, `c01_scaled_constraint` |
| C02 | Markup load/save of POIs, auxiliary observables and NPs round-trips | decoded markup + `load_field` + per-class load/fill; case analysis, counterexample for None. *Scope:* holds exactly under the stated conditions; c02_poi_roundtrip_fails shows the unrestricted statement is false of the code (F01) | proved | `c02_aux_roundtrip`, `c02_poi_save_load`, `c02_poi_roundtrip_iff`, `c02_poi_roundtrip_fails`, `c02_np_roundtrip_iff`, `c02_np_loaded_roundtrip`, `c02_wrong_type_raises` |
| C03 | Parameters behave like a map from names to values | `Parameters` as names + two value arrays, `set`/`get`; induction over the assignment history, refinement to a map. | proved | `c03_set`, `c03_history`, `c03_known_or_keyError`, `c03_unscaled_roundtrip` |
| C04 | Parameter dictionaries round-trip | `dict`/`set_from_dict` as folds; induction over names. *Scope:* c04_default_roundtrip_fails: export/import with the default flags of both functions do not match (F02) | proved | `c04_dict_roundtrip`, `c04_dict_entries`, `c04_missing_key`, `c04_default_roundtrip_fails`, `c04_init_from_dict`, `c04_init_missing_poi`, `c04_init_shaped` |
| C05 | Expression gradients are the true partial derivatives | inductive type of expressions, `real_vals` as a left fold, gradient vectors; derivatives (`HasDerivAt`) along coordinates, induction on the list. | proved | `c05_gradient` |
| C06 | Expression Hessians are the true second derivatives | as C05 for the matrices of second derivatives. *Scope:* c06_zero_factor_fails: where a numerator factor is 0 the code gives nan (F03) | proved | `c06_hessian`, `c06_hessian_exists`, `c06_zero_factor_fails` |
| C07 | Fixing parameters of a model does not change its predictions | `Expression.replace` on a store of mutable expressions, `remove_pois`; invariant over the replacement loop and fuel induction. *Scope:* c07_product_fails (F33) and c07_norm_fails (F34) are what the code does with products and with POIs that normalise a sample directly; F35 (two POIs in one call) is an example | proved | `c07_remove_pois`, `c07_replace`, `c07_replace_succeeds`, `c07_norm_fails`, `c07_product_fails` |
| C08 | Impact interpolation reproduces every supplied variation | Vandermonde system `p^(n+1)`; invertibility, matrix algebra, then through `k_exp`. *Scope:* c08_kexp_reproduces assumes equally many variations of each sign for all samples and NPs; c08_mixed_widths_fails (F07) shows the code is wrong otherwise; c08_words_fail (F92) describes a defect | proved | `c08_polynomial`, `c08_polynomial_exists`, `c08_kexp_reproduces`, `c08_setup_ok`, `c08_mixed_widths_fails`, `c08_words_fail` |
| C09 | Yields at nominal nuisance parameters are the nominal yields | `k_exp`, `n_exp`; algebra. | proved | `c09_nominal`, `c09_factor` |
| C10 | Log-normal yields stay positive and cut-off yields stay within the cutoff | `k_exp`, `cut_k_exp`; exp positivity, tanh bounds and derivative. | proved | `c10_positive`, `c10_cutoff` |
| C11 | Channel offsets partition the bins | channel offsets as running sums; list induction. | proved | `c11_partition`, `c11_unique_channel`, `c11_poisson_first` |
| C12 | Only consistent counts and auxiliary observables are accepted | `Data.set_counts`, `set_aux_obs`; case analysis on lengths, list induction. *Scope:* c12_counts_wrong (F36): wrong lengths raise NameError; c12_default_aux (F37): default auxiliary observables are unscaled nominal values although read as pulls | proved | `c12_counts`, `c12_counts_wrong`, `c12_aux`, `c12_default_aux` |
| C13 | Datasets round-trip through markup | dataset markup of all channel classes; composition of save and load. *Scope:* c13_gaussian_never (F38) | proved | `c13_roundtrip`, `c13_exact`, `c13_gaussian_never` |
| C14 | The reported NLL gradient is the derivative of the NLL with respect to the POIs | `nll`, `gradient`; calculus on finite sums, uses C05. *Scope:* holds without the Gaussian channels and with non-empty normalisations; c14_gaussian_fails (F04) and c14_empty_norm_fails (F05) show both restrictions are needed | proved | `c14_gradient`, `c14_gradient_offset`, `c14_gaussian_fails`, `c14_empty_norm_fails` |
| C15 | The reported NLL Hessian is the second derivative of the NLL | `hessian`; calculus, uses C06. | proved | `c15_hessian`, `c15_hessian_exists` |
| C16 | The NLL offset cancels in differences | NLL with and without offset; algebra. *Scope:* needs non-zero reference yields: c16_zero_reference_fails (F06) | proved | `c16_offset_cancels`, `c16_infinite`, `c16_zero_reference_fails` |
| C17 | An Asimov dataset is best described by the parameters that generated it | Asimov data; `log x <= x-1`. | proved | `c17_asimov_minimum`, `c17_asimov_minimum_offset` |
| C18 | Nuisance-parameter profiling minimises the quadratic approximation | P and Q matrices of the NP profiling; quadratic forms. *Scope:* positive semi-definiteness and minimality without the lognormal terms; c18_nonzero_start_fails (F09), c18_lognormal_gaussian_fails (F11) | proved | `c18_exact_derivatives`, `c18_linearised_derivatives`, `c18_lognormal_derivatives`, `c18_lognormal_excess`, `c18_symmetric`, `c18_psd`, `c18_profile_minimises`, `c18_well_conditioned`, `c18_nonzero_start_fails`, `c18_lognormal_gaussian_fails` |
| C19 | Profiling is exact for Gaussian channels with linear impacts | as C18 for Gaussian channels; equality of approximation and NLL. *Scope:* c19_second_iteration_worsens (F10): the property holds for one step from the nominal NPs only | proved | `c19_gaussian_exact`, `c19_gaussian_exact_offset`, `c19_second_iteration_worsens` |
| C20 | The profile-likelihood-ratio statistic is never negative | `tmu`; case analysis over fit outcomes. *Scope:* c20_failure_not_reported (F13): failed fits are not reported; the scipy optimiser is an arbitrary run, c20_exact states the contract it needs | proved | `c20_is_profile_ratio`, `c20_nonneg`, `c20_exact`, `c20_failure_not_reported` |
| C21 | Initial POI values always respect the bounds used in the fit | bounds and initial values of the fit; case analysis. | proved | `c21_bounds`, `c21_start`, `c21_start_within`, `c21_succeeds` |
| C22 | Combining parameter bounds is intersection | `ParBound.__and__`; order reasoning over optional ends. *Scope:* c22_unbounded_reported_fixed (F12): a bound without ends accepts everything but is reported fixed | proved | `c22_accepts`, `c22_and`, `c22_laws`, `c22_fixed`, `c22_free`, `c22_unbounded_reported_fixed` |
| C23 | Asymptotic p-values are probabilities that decrease with the test statistic | asymptotic p-values with the normal distribution; monotonicity. *Scope:* scipy distributions are the mathematical ones; c23_zero_threshold_fails (F16) | proved | `c23_tmu`, `c23_tmu_one_poi`, `c23_qmu`, `c23_ncp_available`, `c23_qmutilda`, `c23_zero_threshold_fails` |
| C24 | The q\~_mu p-value joins continuously at its threshold and agrees with q_mu below it | as C23; algebra at the threshold. | proved | `c24_below`, `c24_at_threshold`, `c24_above` |
| C25 | Statistic-from-p-value inverts p-value-from-statistic | inverse functions; strict monotonicity and surjectivity. *Scope:* c25_qmutilda_inverse_iff gives the exact extent for q\~_mu (F17); c25_tmu_inverse_fails (F18) | proved | `c25_qmu_inverse`, `c25_qmutilda_inverse_iff`, `c25_qmutilda_inverse_fails`, `c25_tmu_inverse_fails` |
| C26 | CLs lies between CLs+b and 1 | CLs of the statistics; order reasoning. *Scope:* c26_qmutilda_exceeds_one (F19): the CLb of q\~_mu drops tmu_0 | proved | `c26_ratio`, `c26_qmu`, `c26_qmutilda`, `c26_qmutilda_exceeds_one` |
| C27 | Sampled p-values are the mid-rank fraction | `np.searchsorted` on sorted lists; counting lemmas, permutation invariance. *Scope:* c27_unsorted_fails (F20): samples saved before sorting give wrong p-values when loaded; c27_truncated_load_biased (F21): loading a part of the stored samples keeps the smallest ones | proved | `c27_midrank`, `c27_range_monotone`, `c27_order_independent`, `c27_edges`, `c27_saved_and_loaded`, `c27_too_few_refused`, `c27_truncated_load_biased`, `c27_unsorted_fails`, `c27_with_error` |
| C28 | Sampling quantiles are samples and monotone | quantile index; sorted lists. *Scope:* c28_refused (F22): fraction 1 raises IndexError | proved | `c28_quantile`, `c28_monotone`, `c28_pv_of_quantile`, `c28_refused` |
| C29 | Completed sampling results are never regenerated or overwritten by later jobs | N processes with locks and crashes as a transition system; invariants by induction on executions, counterexample traces. *Scope:* holds for processes that start after the result exists; c29_no_mutual_exclusion (F23) and c29_finished_results_overwritten (F24) show that concurrent processes can generate the same hypothesis and overwrite a finished file | proved | `c29_result_is_final`, `c29_later_jobs_only_load`, `c29_results_are_generated`, `c29_lock_excludes`, `c29_lock_holder_result`, `c29_no_mutual_exclusion`, `c29_finished_results_overwritten` |
| C30 | A crashed sampling job is recoverable | as C29; invariants and solo-run progress. *Scope:* c30_truncated_file_is_fatal (F25): a crash while writing the results file leaves a file later jobs fail on, even with break_locks | proved | `c30_stale_lock_respected`, `c30_recovery`, `c30_terminates`, `c30_truncated_file_is_fatal` |
| C31 | Toy generation returns exactly the requested number of results or reports failure | generation loop over a stream of outcomes; induction on fuel, non-termination for the all-fail stream. *Scope:* c31_max_tries_ignored, c31_failing_never_stops (F26): the termination part of the property is false of the code | proved | `c31_returns_requested`, `c31_max_tries_ignored`, `c31_failing_never_stops`, `c31_returns_if_successful`, `c31_exception_propagates` |
| C32 | Models survive being saved and loaded | `Model.load_dict`/`fill_dict` and those of all parts; composition of round trips by structural induction. *Scope:* markup as decoded dictionaries (file syntax not modelled); c32_options_lost (F59), c32_gaussian_lost, c32_gaussian_becomes_poisson (F58), c32_formula_never_loads (F57), c32_second_load_fails, c32_duplicate_sample_dropped (F60), c32_numeric_name_fails describe the code outside the hypotheses | proved | `c32_loaded_roundtrip`, `c32_constructed_roundtrip`, `c32_predictions`, `c32_options_lost`, `c32_gaussian_lost`, `c32_formula_never_loads`, `c32_second_load_fails`, `c32_duplicate_sample_dropped`, `c32_numeric_name_fails`, `c32_gaussian_becomes_poisson`, `c32_gaussian_example` |
| C33 | Merging channels changes neither predictions nor likelihood | `ChannelMerger` on a store of shared impacts; list algebra through the likelihood. *Scope:* under Mergeable (same normalisation of samples of the same name, impacts at +-1, bin by bin in multi-bin channels), no cutoff; c33_original_corrupted, c33_common_impact_fails (F53), c33_norms_not_compared (F54) describe the code outside the hypotheses | proved | `c33_predictions`, `c33_data`, `c33_likelihood`, `c33_refused`, `c33_original_corrupted`, `c33_common_impact_fails`, `c33_norms_not_compared` |
| C34 | Removing a nuisance parameter fixes its effect | `NPPruner.remove_nps`; algebra of the exponential impacts, list induction. *Scope:* exponential mode without floor; c34_linear_fails (F49), c34_default_value_is_a_pull (F48), c34_wildcard_value_ignored (F51), c34_selected_twice_fails, c34_zero_norm_unusable (F50) describe the code outside the hypotheses | proved | `c34_likelihood_ratio`, `c34_remove_nps`, `c34_totals`, `c34_likelihood`, `c34_linear_fails`, `c34_default_value_is_a_pull`, `c34_wildcard_value_ignored`, `c34_unknown_refused`, `c34_selected_twice_fails`, `c34_zero_norm_unusable` |
| C35 | Hypotheses work as dictionary keys | `POIHypo` equality and hash, dict keyed by it; arbitrary hash function, histories by induction. *Scope:* c35_reordered_missed (F27): hypotheses listing the POIs in another order are equal but not found | proved | `c35_equality`, `c35_hash`, `c35_lookup`, `c35_reordered_missed` |
| C36 | Fit results reproduce the fitted parameters | `FitResult` built from parameters and back; uses C01, C04. *Scope:* c36_range_lost (F29): parameter ranges become [0,0] on reload | proved | `c36_pars`, `c36_hypo`, `c36_saved_and_loaded`, `c36_range_lost` |
| C37 | All hypotheses of a raster are compared to the same best fit | `Raster.set_global_best_fit`; exact extent and counterexample. *Scope:* c37_common_best_iff gives the exact extent; c37_negative_tmu (F28): set_global_best_fit has no effect on the statistics, which may be negative | proved | `c37_own_fits`, `c37_succeeds`, `c37_common_best_iff`, `c37_negative_tmu` |
| C38 | Scan minimum and maximum are attained and bound all points | scan minimum/maximum; list argmin. | proved | `c38_readable`, `c38_minimum`, `c38_maximum`, `c38_variation` |
| C39 | Saved datasets are read back by channel name, and their binning is checked | dataset loading by name; permutation invariance. | proved | `c39_channel_order`, `c39_aux_order`, `c39_missing_channel`, `c39_bins_checked`, `c39_names_checked`, `c39_missing_aux` |
| C40 | Expression evaluation depends only on earlier definitions | `real_vals` fold; list induction. | proved | `c40_order`, `c40_ordered_ok`, `c40_unknown_keyError`, `c40_append`, `c40_base_is_nominal_dict` |
| C41 | A sample normalised by a nuisance parameter scales with it | implicit norm impacts (`Sample.set_...`) through `k_exp`; algebra. *Scope:* c41_product_norm_fails (F08): for other expressions of an NP the implicit impact is wrong | proved | `c41_np_norm_scales`, `c41_product_norm_fails` |
| C42 | A fit moves only the parameters it may move | POI minimiser with an arbitrary optimiser run; invariants over the evaluations. | proved | `c42_model_keeps_pois`, `c42_fixed_pois_kept`, `c42_best_fit_within`, `c42_hypothesis_kept` |
| C43 | The best-fit point and the best-fit NLL belong together | as C42; relation of the stored point and NLL. What holds is proved, the unrestricted statement is refuted. *Scope:* c43_point_is_last_evaluation (F14) shows the unrestricted statement is false of the code; c43_consistent_iff gives the exact extent | proved | `c43_no_free_poi`, `c43_stored`, `c43_consistent_iff`, `c43_point_is_last_evaluation` |
| C44 | A fit can be repeated | minimiser state after a fit; equality of two runs. *Scope:* c44_second_fit_fails (F15): with no free POI the second call raises ValueError | proved | `c44_second_fit_fails`, `c44_repeat` |
| C45 | CLs orders observations like the test statistic | CLs of q_mu, q\~_mu; monotone likelihood ratio of the normal tail. | proved | `c45_qmu_cls_decreasing`, `c45_qmutilda_cls_decreasing` |
| C46 | The asymptotic density is the derivative of the asymptotic p-value | asymptotic densities; derivative of the normal distribution function, one-sided at the threshold. | proved | `c46_qmu_integral`, `c46_qmutilda_integral`, `c46_qmu_pdf`, `c46_qmutilda_pdf` |
| C47 | The sampled CLs is the ratio of the two sampled p-values | sampled CLs; case analysis. | proved | `c47_sampled_cls`, `c47_with_error`, `c47_missing` |
| C48 | Expected bands are ordered | bands from quantiles; uses C28. | proved | `c48_bands_ordered`, `c48_cls_bands`, `c48_all_orders` |
| C49 | Cutting a sampling distribution keeps exactly the samples within the limits | `cut`; filtered lists. *Scope:* c49_zero_limit_ignored, c49_zero_limit_fails (F39): a limit of 0 is ignored | proved | `c49_cut`, `c49_pv_after_cut`, `c49_zero_limit_ignored`, `c49_zero_limit_fails` |
| C50 | Rasters survive being saved and loaded | raster markup; induction over the entries with arbitrary hashes. *Scope:* c50_full_hypo_nps_lost (F30) | proved | `c50_plr_data`, `c50_any_raster`, `c50_raster`, `c50_full_hypo_nps_lost` |
| C51 | Asimov values are attached to the right hypotheses | `set_asimov`; zip of the entry lists. *Scope:* c51_other_order (F31): other orders give wrong Asimov values silently | proved | `c51_by_position`, `c51_same_order`, `c51_sizes`, `c51_other_order` |
| C52 | A key reported as filled can be read everywhere | `is_filled`; case analysis. *Scope:* c52_only_pv_always_true (F32) | proved | `c52_is_filled`, `c52_then_readable`, `c52_only_pv_always_true` |
| C53 | A floor on the yields only raises yields that are too small | floor in `tot_bin_exp`; max algebra. | proved | `c53_floor`, `c53_floor_finite` |
| C54 | Upper limits are crossings of the p-value curve | scan limits with an arbitrary spline satisfying a contract; intermediate values, first root. *Scope:* splines are a parameter satisfying the documented behaviour (Spec/Spline.lean, shown to be satisfiable); c54_cl_ignored (F40), c54_few_points | proved | `c54_limit_is_crossing`, `c54_limit_found`, `c54_cl_ignored`, `c54_few_points`, `c54_unordered_refused`, `c54_limit_with_errors` |
| C55 | Likelihood intervals end where the scan reaches the level of the confidence level | likelihood intervals; as C54, and inverse functions of the chi2/normal distributions. *Scope:* c55_few_points (F41): with fewer than 5 points the central value is a test statistic value | proved | `c55_interval_ends`, `c55_central_value`, `c55_single_crossing`, `c55_few_points`, `c55_levels_1d`, `c55_levels_2d` |
| C56 | For a Gaussian measurement the asymptotic p-values, CLb and CLs are the exact probabilities | asymptotic formulas against Gaussian measure of sets; measure computations. *Scope:* c56_qmutilda_default_negative (F42): without the statistic at zero the p-value is too small for negative best fits | proved | `c56_tmu_exact`, `c56_qmu_exact`, `c56_qmu_cls_exact`, `c56_qmutilda_exact`, `c56_qmutilda_default_exact`, `c56_qmutilda_default_negative` |
| C57 | A minimiser can be used again and again | `OptiMinimizer` with state, arbitrary deterministic optimiser; induction over the history of calls. *Scope:* scipy optimisers are an arbitrary deterministic function of the problem; c57_method_switched (F44), c57_rebound_fails (F47) and c57_alternate_stays describe what happens outside the hypotheses | proved | `c57_history_independent`, `c57_as_first_use`, `c57_rebound_fails`, `c57_alternate_stays`, `c57_method_switched` |
| C58 | Results for a list of hypotheses are those of each hypothesis alone | calculators over lists of hypotheses; induction over the list. *Scope:* F42 and F45 (no tmu_0 for q\~mu, unclipped tmu in rasters) are visible in the statements | proved | `c58_each_alone`, `c58_order_independent`, `c58_tmu_values`, `c58_qmu_values`, `c58_qmutilda_values`, `c58_recompute`, `c58_recompute_same` |
| C59 | The free-fit options of the two-sided calculator | free-fit options of `TMuCalculator`; as C58. *Scope:* c59_user_bounds_ignored (F46) | proved | `c59_unknown_option`, `c59_best_fixed_fit`, `c59_fits_as_alone`, `c59_all_as_general`, `c59_user_bounds_ignored` |
| C60 | Pruning samples by significance only removes negligible samples | `SamplePruner`; bound on the significance function by calculus. *Scope:* c60_channel_emptied (F52): a channel can lose all its samples | proved | `c60_significance_finite`, `c60_lost_yield_small`, `c60_small_pruned`, `c60_remaining_unchanged`, `c60_predictions`, `c60_lone_sample_kept`, `c60_channel_emptied` |
| C61 | Pruning small nuisance parameters removes exactly those with small impacts | `NPPruner.prune`; reduction to C34. *Scope:* c61_missing_impact_fails (F56) | proved | `c61_pruned_iff`, `c61_prune_is_removal`, `c61_missing_impact_fails` |
| C62 | Covariances, errors and correlations of the POIs describe the curvature of the likelihood | covariance, errors, correlations; inverse of positive definite matrices, profile of the quadratic form. *Scope:* Poisson channels; exact linear algebra; NPs are held fixed by the code | proved | `c62_inverse`, `c62_none_iff`, `c62_no_covariance`, `c62_errors`, `c62_covariance_posdef`, `c62_correlation`, `c62_asimov_fisher`, `c62_negative_variance` |
| C63 | Assignments written on the command line are applied as written | texts as character lists, `split`; list induction, Cartesian products. *Scope:* float/int/regular expressions are arbitrary functions; c63_scaling_compounds (F63), c63_log_never (F64), c63_pois_misread (F65), c63_setranges_error describe defects | proved | `c63_setvals`, `c63_setvals_error`, `c63_blanks`, `c63_scaling_compounds`, `c63_list`, `c63_combinations`, `c63_combinations_count`, `c63_range`, `c63_log_never`, `c63_setranges`, `c63_setranges_error`, `c63_pois`, `c63_pois_unknown`, `c63_pois_misread` |
| C64 | Pseudo-datasets follow the likelihood | distribution of `generate_data` as a product of Poisson and Gaussian measures; densities of product measures, moments. | proved | `c64_likelihood_ratio`, `c64_aux_width`, `c64_mean`, `c64_gaussian_covariance`, `c64_refused`, `c64_expected_nll`, `c64_gaussian_fails` |
| C65 | Models imported from pyhf predict what pyhf predicts | the conversion as a function from decoded workspaces to markup, composed with the model of loading (C32) and of `n_exp`; invariants of the loops over modifiers, samples, channels; product formula bin by bin. | proved | `c65_predictions`, `c65_totals`, `c65_shapes_multiply`, `c65_parameters`, `c65_data`, `c65_lumi_first`, `c65_staterror_linear`, `c65_shape_then_norm`, `c65_same_sign_dropped`, `c65_same_sign_flipped`, `c65_empty_bin`, `c65_lumi_central` |
| C66 | A reparameterised model is the old model with its POIs expressed by the new ones | the steps of the script as one function between models; an environment that satisfies all definitions is shown to be preserved by each step (invariant of the loop over removed POIs), hence the predictions; existence of the environment by induction over the ordered expressions. | proved | `c66_predictions`, `c66_nll`, `c66_norms`, `c66_yields`, `c66_every_point`, `c66_listed`, `c66_replaced_poi_in_expression_fails`, `c66_new_poi_hidden_fails` |
| C67 | On its own Asimov dataset the generating hypothesis has statistic 0 | composition of C17 (with a floor), a vanishing first-order term in the NP profiling (so that the hypothesis stays where it is) and the inversion of the fits: every number the free fit can store is an NLL of the model, hence not below that of the generating point. | proved | `c67_own_asimov`, `c67_full_hypothesis`, `c67_gaussian_any_nps` |
| C68 | With Gaussian channels and linear impacts the statistic is the exact profile likelihood ratio | composition of C19 with a theorem on the fits (an optimal optimiser finds the minimum over all points allowed by the bounds, because every allowed point is the image of a point of the box handed to the optimiser). | proved | `c68_gaussian_exact_ratio` |
| C69 | The likelihood is the product over the channels | channels as consecutive blocks of bins; the arrays of a part are a window of the arrays of the whole (C08 formulas bin by bin), then the NLL as a sum over blocks. | proved | `c69_part_predictions`, `c69_likelihood`, `c69_channels` |
| C70 | Merging models gives the model with all channels | `ModelMerger` on objects with their internal arrays, composed with loading and saving (C32); loop invariants for the channel dictionary, C69 for the meaning of the result. | proved | `c70_merge_files`, `c70_predictions`, `c70_likelihood`, `c70_arrays`, `c70_parameters_not_compared`, `c70_np_count`, `c70_options`, `c70_same_name_replaces`, `c70_bins_counted_repeatedly`, `c70_merged_object_unusable`, `c70_check_never_true` |
| C71 | Over any history of runs a raster file holds the results of one of the runs | a script run as a function of the file and of its arguments (composed with the calculators, C58/C59, and with the raster file format, C50); induction over the history of runs, each step either leaves the file or writes a raster that satisfies the conditions of C50. *Scope:* usual runs: distinct names, hypotheses that list the same POIs in the same order, a new minimiser; c71_reused (F82) and c71_crash (F83) describe defects; writing other than of a whole file is only modelled as a file which cannot be read | proved | `c71_history`, `c71_first_run`, `c71_overwrite`, `c71_reused`, `c71_crash` |
| C72 | poi_scan uses a stored raster only for the hypotheses it was asked for | the checks of poi_scan on a loaded raster; a counting argument (an injective map between finite lists of the same length is onto). *Scope:* c72_repeated_refused, c72_covers_more (F84), c72_single_hypothesis (F85) describe defects | proved | `c72_forced`, `c72_first_run`, `c72_with_file`, `c72_covers_exactly`, `c72_repeated_refused`, `c72_covers_more`, `c72_single_hypothesis`, `c72_three_pois` |
| C73 | Limits of a Gaussian measurement are the exact ones, from the model file to the limit | completing the square for a quadratic form in (POI, NPs) minimised over the NPs (general lemma on quadratic functions on a vector space); composition with C19 (profiling exact for Gaussian bins), C68 (both fits), C58 (calculators), C56 (exact probabilities), C54 (limits of interpolated curves); forward simulation of the scan for the success part. *Scope:* optimiser and spline are parameters with stated contracts, shown to be satisfiable for every such model; the bounded statistic needs a best-fit value >= 0 (F42); without the assumption that the optimiser ends where it reports the minimum, c73_qmu_exact etc. need the stored best-fit value on the right side | proved | `c73_gaussian_measurement`, `c73_measurement_unique`, `c73_statistics`, `c73_qmu_exact`, `c73_qmutilda_exact`, `c73_tmu_exact`, `c73_exact_limit`, `c73_limit`, `c73_succeeds`, `c73_scan_qmu`, `c73_scan_qmutilda`, `c73_scan_limit` |
| C74 | The pruning script keeps the likelihood of the remaining parameters and writes files that load as the pruned model | refinement: the tools on documents give the tools on models of C34/C61 (removeNps_mdl); an invariant (the document loads back as the object) kept by all steps; likelihood ratio of C34 by splitting the constraint terms; the text of the options by C63; the dataset by C13. *Scope:* Poisson channels (F58: Gaussian channels are not saved); nominal values, no zero variations, each auxiliary observable used by one NP; likelihood statement for patterns that select one NP; c74_needs_data (F86), c74_poi_selected_fails, c74_wildcard_values (F63) describe defects | proved | `c74_reload`, `c74_reload_exact`, `c74_no_options`, `c74_needs_data`, `c74_nps_likelihood`, `c74_small_impacts`, `c74_poi_selected_fails`, `c74_wildcard_values` |
| C75 | P-values from generated samples have the stated chance to be small | exchangeability: the event that given attempts succeed is invariant under exchanging the observation with a successful attempt, so all of them have the same chance of a small rank; at most c+1 of them can have a doubled mid-rank up to c (pointwise counting); sum over the countably many patterns of successes; Borel-Cantelli for the termination. *Scope:* the random number generator is an ideal one (independent draws from the law of C64); the statistic is any measurable function of the dataset; c75_not_conservative (F87) describes a defect | proved | `c75_bound`, `c75_cls_bound`, `c75_returns`, `c75_exact`, `c75_not_conservative`, `c75_bound_attained` |
| C76 | Samples of the toy sampler are p-values of their own dataset | the state of the minimiser is kept from toy to toy in the model; compute is inverted into the two fits of tmu (C20, C57) and the p-value formulas (C21); two states that differ in fit results only give the same outcome if every fit sets min_pois; induction over the toys, then C75; concrete models for the defects. *Scope:* debug output is off; the optimiser is an arbitrary function of the problem that evaluates the objective at least once; c76_bounds_reversed (F89), c76_stale_best (F90), c76_first_free_poi (F91) and c76_ranges_break (F88) describe defects | proved | `c76_qmu`, `c76_qmutilda`, `c76_between`, `c76_none_only_bounds`, `c76_matches_calculator`, `c76_history_independent`, `c76_generate`, `c76_coverage`, `c76_bounds`, `c76_bounds_reversed`, `c76_stale_best`, `c76_first_free_poi`, `c76_ranges_break` |
| C77 | Yields of a channel and expected datasets are those of the given parameters | channel offsets and array slices as lists, induction over the channels; expected parameters through C03 constructors and C18 profiling; consistency from the exact Gaussian minimum (C19) and C17. *Scope:* idempotence is proved for Gaussian channels and linear impacts, where profiling is exact (F10 otherwise); c77_parameters_not_ignored (F93) describes a defect | proved | `c77_channel_rows`, `c77_sample_row`, `c77_partition`, `c77_total`, `c77_errors`, `c77_expected_plain`, `c77_expected_profiled`, `c77_expected_missing`, `c77_calculator_asimov`, `c77_idempotent`, `c77_parameters_not_ignored` |
| C78 | The channel-merging script keeps predictions, data and likelihood | ChannelMerger on the Python objects (Model/MergeScript.lean), refining the merge of C33 (newDocs_map, merge_step), induction over the merges (SamePredictions, SameData and SameDocs compose), parsing by splitOn/intercalate, files by C32 and C13; the defect by inversion of the script. *Scope:* c78_never_reloads (F94) describes a defect; the positive theorem is about the output without the entry description | proved | `c78_parse`, `c78_parse_refused`, `c78_never_reloads`, `c78_merged`, `c78_refused` |
| C79 | The fit script reports the best fit, and what its uncertainties mean | the script on decoded files (Model/FitScript.lean) with scipy as a parameter; inversion of the fit to the contract of C42/C67, the Asimov case from Gibbs inequality (C17), uncertainties from C62, option texts from C63, the printed value by following the minimiser state through C68/C73. *Scope:* conditional on the optimiser contract GoodFit (scipy is a parameter); c79_regularize, c79_uncertainty_blind, c79_printed_best_fit, c79_asimov_option (last part) and c79_name_clash (F95-F99) describe defects | proved | `c79_best_fit`, `c79_gaussian`, `c79_asimov`, `c79_uncertainty`, `c79_uncertainty_blind`, `c79_failed_fit`, `c79_hypothesis_no_effect`, `c79_name_clash`, `c79_data_source`, `c79_asimov_option`, `c79_hypothesis`, `c79_regularize`, `c79_script`, `c79_ranges`, `c79_hypo_option`, `c79_options`, `c79_printed_best_fit` |
| C80 | Toy-based limits are crossings of the toys' CLs curve, also from concurrent jobs | the script as preparation, generation on a directory, and results (Model/LimitScript.lean), built on the models of rasters (C35), calculators (C57), samples (C27), scans (C54), the sampler (C76) and the lock protocol (C56); the jobs by an invariant of the protocol: every stored or held sample is a sorted list of N toys generated for the hypothesis of its file; the defects by inversion of the script and c76_ranges_break. *Scope:* scipy splines are a parameter with the contract of C54; c80_never, c80_samplers_fail (F100), c80_background (F101), c80_sethypo (F102), c80_single_point (F103), c80_cl_ignored (F104) and c80_statistic (F105) describe defects | proved | `c80_bands`, `c80_fits_file`, `c80_refused_options`, `c80_too_few`, `c80_file_names`, `c80_sampling_cls`, `c80_sampling_clsb`, `c80_asymptotic`, `c80_jobs`, `c80_limit_from_jobs`, `c80_results_file`, `c80_generation`, `c80_samplers_fail`, `c80_never`, `c80_background`, `c80_sethypo`, `c80_single_point`, `c80_cl_ignored`, `c80_statistic`, `c80_rerun` |
| C81 | Sampling results are picked up unchanged by a later session | Samples.load on a directory (Model/SampleStore.lean), composed with the invariant of the lock protocol (jobs_inv); the lone job by an invariant relating what it holds to the files (Lemmas/LockReload.lean); lookups by C35. *Scope:* the file names are assumed different (F88/C56: they need not be); c81_load_incomplete and c81_generate_fails (F106) describe defects | proved | `c81_load_jobs`, `c81_load_cls`, `c81_reload_same`, `c81_load_incomplete`, `c81_load_all_toys`, `c81_create`, `c81_generate_fails` |
| C82 | Resampled scans go through the scan points; two-dimensional best fits are not above them | Model/Resample.lean on the scan model of C54; np.linspace as a list, interpolation contract of the spline library; smallest point by C38. *Scope:* scipy splines and minimiser are parameters with their documented behaviour | proved | `c82_resample`, `c82_resample_refines`, `c82_resample_refused`, `c82_best_fit` |
| C83 | Clones are independent of the original | Python objects as cells of a heap with addresses (Model/Clone.lean); Spec/Clone.lean says which cells belong to a model and what a change through a model is; clones by induction over channels and samples (all new cells), independence by induction over the changes, pruning by a read-after-write lemma and C40. *Scope:* the heap holds the objects that the code writes to; normalisation, expression and bin objects are never written to and are values; c83_gauss_clone_fails (F107), c83_cutoff_dropped (F108) and c83_impacts_never (F109) describe defects | proved | `c83_clone`, `c83_clone_twin`, `c83_cutoff_dropped`, `c83_gauss_clone_fails`, `c83_independent`, `c83_tools_through`, `c83_remove_clone`, `c83_remove_in_place`, `c83_remove_alike`, `c83_shared_pois`, `c83_impacts_never` |
| C84 | merge_models.py merges the files it finds, in the order it announces | Model/MergeCmd.lean on the merge model of C70 and the pruning model of C69; the sort key as a list of pieces with a total order, sortedness from the merge sort of the library. *Scope:* file search and word characters are parameters; c84_missing_ignored (F110), c84_star_refused (F111) and c84_numeric_textual (F112) describe defects | proved | `c84_numeric_order`, `c84_numeric_textual`, `c84_numeric_sort`, `c84_merge`, `c84_named_files`, `c84_missing_ignored`, `c84_star_refused` |
| C85 | iterate.py and collect_results.py use the same positions and keep results aligned with them | Model/Collect.lean: the position parser, the commands, and the loop over keys and positions with its state; an invariant of the loop says which positions have been collected (Props/Collect.lean). *Scope:* the text of a floating-point number and the reading of numbers are parameters; plots and ROOT output are not modelled; F113-F116 are parts of c85_positions_log, c85_log_from_one, c85_positions_list, c85_bands_positions and c85_band_not_a_number | proved | `c85_positions_linear`, `c85_positions_log`, `c85_log_from_one`, `c85_positions_list`, `c85_commands`, `c85_aligned`, `c85_bands`, `c85_bands_positions`, `c85_total`, `c85_complete`, `c85_not_a_number`, `c85_band_not_a_number` |
| C86 | Converted workspaces: yields and impacts | Model/ConvertWs.lean: the workspace is an assignment of values with arbitrary yield functions; the loops thread the assignment; invariant: outside the normalisations the values are the initial ones, so that every evaluation happens at the intended point; Spec/ConvertWs.lean says what the yields should be; composed with C08 for the model that is written. *Scope:* the expected yield of a bin is an arbitrary function of the variables (RooFit is not modelled); c86_shared_norm (F117) describes a defect | proved | `c86_entries`, `c86_default`, `c86_epsilon`, `c86_shares`, `c86_additive`, `c86_shared_norm`, `c86_reproduces`, `c86_supplied`, `c86_model` |
| C87 | Packing of converted impacts | pack on a table of impacts; the three cases by the mean; error bounds by the triangle inequality through Sample.impact. *Scope:* rounding is a parameter with a relative bound; c87_left_out_width (F120) describes a defect | proved | `c87_pack`, `c87_error`, `c87_exact`, `c87_readable`, `c87_left_out_width`, `c87_table` |
| C88 | Options and output of the workspace conversion | Model/ConvertOpts.lean; option texts by splitOn/intercalate, lists by induction. *Scope:* reading of numbers is a parameter; c88_samples_named_channel (F118), c88_single_name (F119), the last part of c88_binning_plain (F121), c88_validation_two_empty (F122) and the first part of c88_found_samples describe defects | proved | `c88_binning_items`, `c88_binning_plus`, `c88_binning_plain`, `c88_binning_log`, `c88_binning_refused`, `c88_channels`, `c88_channel_text`, `c88_default_sample`, `c88_samples`, `c88_samples_named_channel`, `c88_single_name`, `c88_found_samples`, `c88_written`, `c88_norm`, `c88_validation`, `c88_validation_two_empty`, `c88_variations`, `c88_deviation` |
| C89 | Over repeated measurements the uncertainties and limits of a Gaussian model mean what they say | Spec/GaussCoverage.lean says what it means for random datasets to follow the likelihood (multivariate normal bins, normal auxiliary observables, independence); the best-fit POI is an affine functional of the data (Lemmas/GaussLaw.lean), its law follows from that of linear functionals of normal vectors; p-values are monotone in the best fit (C73), so their law follows. *Scope:* real arithmetic; the optimiser is assumed to find the minima (GoodUse); c89_limit counts only the datasets for which C73 says that a limit is reported; the toys of the code follow the law only under the conditions of c89_toys (F66, F67) | proved | `c89_best_fit`, `c89_pvalue`, `c89_two_sided`, `c89_cls`, `c89_limit`, `c89_exact_limit`, `c89_toys` |
| C90 | Plots of sampling distributions compare the samples with what the asymptotic formulas expect | Model/DumpSamples.lean; the density is minus the derivative of the p-value away from 0 (C46), hence its integral over a bin is the difference of the p-values (fundamental theorem on both sides of 0); for uniform p-values the converted value is in a bin iff the p-value is between those of the edges. *Scope:* matplotlib and the numerical integration are modelled by what they compute; infinite statistics (stored p-values 0 or 1) are not modelled; c90_qmutilda_values includes F17, c90_other_statistic describes F123 | proved | `c90_needs`, `c90_refused`, `c90_bins`, `c90_qmu_values`, `c90_qmutilda_values`, `c90_qmu_reference`, `c90_qmutilda_reference`, `c90_pv`, `c90_qmu_expected`, `c90_pv_expected`, `c90_other_statistic`, `c90_qmu_succeeds` |
| C91 | Linearity plots show the stored and the interpolated impacts of the requested bin, sample and NP | Model/PlotValid.lean; the yield factors into a part that depends on the POIs only and the correction factor (C77, C09), so the ratio to the nominal yield is the factor; C08 gives its value at the stored variations. *Scope:* drawing, titles, files and inversion plots are not modelled; c91_curves includes F124 | proved | `c91_red`, `c91_curves`, `c91_symmetric`, `c91_black`, `c91_rejects` |
| C92 | Limit plots, expected bands, pull plots and printed tables show the values that belong to the hypotheses | Model/Display.lean; what is seen is defined by the last area drawn over a point, and monotonicity of the quantiles (C21) orders the bands; tables by Forall₂ over rows and columns. *Scope:* axes, labels, number formats, the text of verbosity > 2 and p-values stored as pairs in the table are not modelled; F125-F127 are theorems | proved | `c92_limit_curve`, `c92_error_band`, `c92_no_error`, `c92_bands`, `c92_bands_many`, `c92_bands_toys`, `c92_table`, `c92_verbosity_zero`, `c92_table_missing`, `c92_impacts_aligned`, `c92_impacts_number` |
| C93 | What is saved to a file can be read back, and other files are not touched | Model/Files.lean: Python objects as a nested inductive type, json and yaml as partial functions to trees, files as a function of names; induction on objects, with exact characterisation of failure by parts of the object. *Scope:* what json and PyYAML do with each kind of object is part of the trusted model; texts, keys that are not strings and reading in another flavour are not modelled | proved | `c93_json`, `c93_yaml`, `c93_unnumpy_means`, `c93_unnumpy_json`, `c93_unnumpy_yaml`, `c93_flavor`, `c93_save_load`, `c93_save_load_yaml`, `c93_save_fails`, `c93_unknown_flavor`, `c93_save_crash`, `c93_dump_markup`, `c93_data`, `c93_raster_yaml`, `c93_gaussian` |
| C94 | Adding channels to a measurement never reduces its expected sensitivity | Lemmas/AddChannels.lean: likelihood as sum over channels (C69), increments of each channel at its Asimov data are non-negative (Gibbs, quadratic form), induction on the sublist with an embedding of bins. *Scope:* no variations given explicitly, standard impacts, positive Asimov and reference yields in Poisson bins, symmetric and non-negative Gaussian Hessians; minima are exact ones, as for C68 | proved | `c94_increments`, `c94_ratio`, `c94_pvalue`, `c94_part_asimov` |
| C95 | More data never reduce the expected sensitivity | Spec/MoreData.lean: the model with multiplied yields; Lemmas/MoreData.lean: predictions by channel, increments of Poisson channels are multiplied by k and of Gaussian ones by k squared. *Scope:* no variations given explicitly, standard impacts, positive Asimov and reference yields in Poisson bins, symmetric and non-negative Gaussian Hessians, which stay as they are; minima are exact ones | proved | `c95_predictions`, `c95_increments`, `c95_ratio`, `c95_pvalue` |

## Findings

Defects of the code found while modelling; those with a theorem are marked in the table (`_fails`, `_lost`, ...).

F01 POI round trip turns missing attributes into defaults · F02 default flags of dict export/import differ · F03 Hessian of a product is
nan at a zero factor · F04 gradient ignores Gaussian channels · F05 gradient None for empty norms · F06 offset NLL infinite at zero reference
yield · F07 `ndarray.resize` scrambles coefficients of samples with different numbers of variations · F08 implicit impact of a norm
divides by the NP nominal · F09 `linear_impacts` UnboundLocalError · F10 a second profiling iteration moves away from the minimum · F11 Gaussian
log-normal term counted twice · F12 unbounded `ParBound` reported fixed · F13 failed minimisation not reported by tmu · F14 best-fit point is the
last evaluated one · F15 second fit without free POI raises ValueError · F16 q~mu zero threshold ZeroDivision · F17 q~mu inverse compares in wrong
units · F18 t_mu inverse wrong · F19 q~mu CLb drops tmu_0, CLs>1 · F20 unsorted saved samples · F21 truncated load biased · F22 quantile(1)
IndexError · F23 lock check not atomic · F24 finished results overwritten · F25 truncated file fatal · F26 max_tries ignored · F27 reordered equal
hypotheses not found · F28 set_global_best_fit without effect · F29 ranges lost on reload · F30 NPs of full_hypo lost on reload · F31 set_asimov
pairs by position · F32 is_filled(only_pv/only_ts) always True · F33 ProductRatio.replace TypeError · F34 remove_from_norms NameError · F35 removing
two POIs KeyError · F36 set_counts wrong length NameError · F37 default aux_obs unscaled · F38 Gaussian dataset saved under another key than loaded ·
F39 cut with limit 0 ignored · F40 UpperLimitScan cl ignored · F41 interval fallback returns a y value · F42 QMuTilda calculator lacks tmu_0 · F43
tmu_debug sticky · F44 'scalar' switched persistently · F45 raster recomputes tmu unclipped · F46 TMuCalculator loses user bounds · F47 rebound
TypeError · F48 remove_nps default value in wrong units · F49 linear mode not preserved by remove_nps · F50 zero norm makes pruned model unusable · F51
value of wildcard ignored · F52 SamplePruner can empty a channel · F53 ChannelMerger overwrites impacts of the original · F54 norms of merged
samples not compared · F55 ModelMerger.check raises AttributeError; the merged object cannot compute yields · F56 NPPruner KeyError · F57 Formula never loads · F58
Gaussian channel saved as multi_bin · F59 options not saved · F60 duplicate samples dropped · F61 NPs held fixed in the covariance · F62 negative
variance gives nan silently · F63 scaling of values compounds · F64 log ranges never accepted · F65 'name=value:min' misread · F66 aux. obs. of
pseudo-data generated with the unscaled width · F67 Gaussian bins of pseudo-data generated with the inverse covariance · F68 pyhf import:
luminosity uncertainty read from the first measurement · F69 listed parameter without sigmas becomes free · F70 staterror uncertainties added
linearly · F71 histosys followed by normsys of the same name keeps two bins · F72 same-sign variation in one bin drops the systematic in all bins ·
F73 `--keep-same-sign` flips the other bins · F74 empty bin with a shape uncertainty KeyError · F75 luminosity central value ignored · F76
reparam: existing expression that uses a replaced POI leaves an unusable model · F77 new POI with the name of an expression accepted without effect · F78
ModelMerger counts the bins of a model once per channel · F79 ModelMerger ignores the names of NPs and POIs · F80 a channel of the same name
silently replaces that of the first model · F81 models with symmetric impacts cannot be merged · F82 compute_fast_limits uses an existing
raster file whatever the data, hypotheses and statistic, unless `--overwrite` · F83 a run stopped while writing leaves a file which makes every
later run fail even with `--overwrite` · F84 poi_scan: repeated hypotheses refused at the second run, and accepted for a raster with another
hypothesis · F85 poi_scan of a single hypothesis always IndexError · F86 prune_model without a dataset ends with KeyError (its branch for that case is unreachable) · F87 sampling p-values are
not conservative: p-values up to k/n have the chance (k+1)/(n+1), 0 included · F88 `set_poi_values_and_ranges` stores tuples where `ParBound` objects are expected: compute_limits fails at
the first toy · F89 bounds of a sampler are tested on start value minus fitted value · F90 a toy whose fit fails is given the best fit of an earlier toy ·
F91 the sampler compares the tested value with the fit of the first free POI of the model · F92 impacts given under the words 'pos'/'neg' are announced by `available_variations` but cannot be looked up · F93
`expected_pars` uses the NP values of a `Parameters` argument, contrary to its documentation · F94 merge_channels writes a model file that cannot be loaded (`ChannelMerger.merge` passes
the verbosity in place of the description, model_tools.py:286-288; TypeError in core.py:1216) · F95 fit_model `--regularize` always AttributeError
(fit_model.py:64) · F96 the uncertainties and correlations reported by fit_model ignore the covariance of Gaussian channels, the constraints of the NPs and the correlation
with the NPs (cf. F04, F61) · F97 the best-fit value that fit_model prints with a tested hypothesis is the one of the Asimov fit (0 for Gaussian models) · F98 values of NPs in
`--asimov` are accepted and have no effect · F99 a POI called `min_nll`, `min_pars` or `correlation_matrix` clashes with another entry of the report (also: `--iterations` is read and
not used, and `run` ignores its argument) · F100 starting without samples, no sequence of compute_limits runs ever produces samples or
results (F88 in the script) · F101 compute_limits generates the background toys with the first POI of the model at 0, and names it in the results, whichever POI is scanned ·
F102 compute_limits `--sethypo` always ends in ValueError (`plr_data.hypo.dict`, compute_limits.py:110) · F103 a scan with one point ends in IndexError · F104 compute_limits `--cl`
changes the number in the file and no limit · F105 with `-t q_mu` the toys are still p-values of q~mu (also: `--asimov` of compute_limits always ends in ValueError) · F106 `Samples.generate` (and so
`CLsSamples.generate`) always raises: `self.sampler` does not exist (sampling.py:349); the handler of `Samples.load` that reports the file raises NameError instead (`fname`, 327) · F107 a model with samples in a Gaussian channel cannot be cloned: `GaussianChannel.clone`
iterates over sample names (channels.py:636), AttributeError; with it `remove_nps(clone_model=True)` · F108 `Model.clone` resets the cutoff to 0, its docstring promises all options ·
F109 `PlotImpacts.impacts` never returns for a model with NPs: `minimizer.clone(pars)` (plot_tools.py:322) has one argument too many (minimizers.py:565) · F110 `merge_models.py` silently drops names of missing files
(`spec.find('*')` is -1, true: every name is given to glob, merge_models.py:38) · F111 a pattern that begins with `*` is not expanded (`find` gives 0) · F112 `--numeric-sort` does not see numbers after a
letter or underscore (`re.split('(\W)')`, merge_models.py:50) · F113 `vmin:vmax:n:log` gives n+1 values, and vmin = 1 is refused (iterate.py:40, collect_results.py:97) · F114 a range that is not
recognised (two fields, unknown fourth field) is taken as one text · F115 `collect_results.py` writes bands without their positions: longer than `positions` when a file has bands but no result ·
F116 a band that is not a number leaves lists of bands of unequal lengths (collect_results.py:147-153). In convert_ws.py, F117 samples that share a normalisation parameter are each given the yield of all of them (convert_ws.py:642-652); F118 `--samples` items that name a channel, the only documented form, always raise `UnboundLocalError` (575, 586); F119 a single name in `--samples` is the parameter of a sample without name (258-261); F120 packing leaves out null parameters, which then have only the variations ±1 for the model and trigger F07 when there are others (376-382); F121 `--binning xmin:xmax:n` alone gives n-1 bins and stops below xmax (117-127); F122 with two empty samples the validation data of the wrong sample are removed (523-525). A counting channel without `--samples` always raises `NameError` (594) · F123 dump_samples `--t-value` with any other text than `q_mu`, `q~mu` (for instance `t_mu`) draws the p-values on the axis -10..10, with a reference curve that adds up to 20 times the number of samples (also, not proved: submit_limit's make_parser does not return the parser, so that it always fails; plot.py without `--channel` iterates over None; dump_samples, plot, plot_valid, print_model and dump_debug ignore `argv`; dump_debug adds the auxiliary term it means to subtract) · F124 plot_valid switches `use_linear_nps` without computing the coefficients again (plot_valid.py:164-167): for a model loaded in the default, exponential form the curve labelled linear is log(1 + non-linear curve) and misses the stored points · F125 the error band of the sampling curves in the limit plots has both edges at the height of the error (scans.py:473: `up - nom`, `nom - dn` are filled): it has no area and is not around the curve · F126 `--bands 5` or more: plot_bands has five colours (sampling.py:210), `IndexError` after the limits are computed and before the output file is written · F127 `Raster.print(verbosity=0)` without keys prints as verbosity 1 (fit_data.py:641) · F128 datasets with auxiliary observables and rasters with p-values, which hold `np.float64`, are written to YAML with Python tags that `load` refuses (core.py:1514, fit_data.py:377) · F129 models with a `GaussianChannel` cannot be saved: the covariance is an array that is not converted (channels.py:686), `TypeError` in JSON after the file was emptied · F130 `save` opens the file before it knows that it can write: an unknown flavour or an object that cannot be written destroys the old file (base.py:66-69) · F131 `dump_markup` always raises (base.py:112)
