
## Findings

Defects of the code found while modelling; those with a theorem are marked in the table (`_fails`, `_lost`, ...).

F01 POI round trip turns missing attributes into defaults · F02 default flags of dict export/import differ · F03 Hessian of a product is
nan at a zero factor · F04 gradient ignores Gaussian channels · F05 gradient None for empty norms · F06 offset NLL infinite at zero reference
yield · F07 `ndarray.resize` scrambles coefficients of samples with different numbers of variations · F08 implicit impact of a norm
divides by the NP nominal · F09 `linear_impacts` UnboundLocalError · F10 a second profiling iteration moves away from the minimum · F11 Gaussian
log-normal term counted twice · F12 unbounded `ParBound` reported fixed · F13 failed minimisation not reported by tmu · F14 best-fit point is the
last evaluated one · F15 second fit without free POI raises ValueError · F16 q~mu zero threshold ZeroDivision · F17 q~mu inverse compares in wrong
units · F18 t_mu inverse wrong · F19 q~mu CLb drops tmu_0, CLs>1 · F20 unsorted saved samples · F21 truncated load biased · F22 quantile(1)
IndexError · F23 lock check not atomic · F24 finished results overwritten · F25 truncated file fatal · F26 max_tries ignored · F27 reordered equal
hypotheses not found · F28 set_global_best_fit without effect · F29 ranges lost on reload · F30 NPs of full_hypo lost on reload · F31 set_asimov
pairs by position · F32 is_filled(only_pv/only_ts) always True · F33 ProductRatio.replace TypeError · F34 remove_from_norms NameError · F35 removing
two POIs KeyError · F36 set_counts wrong length NameError · F37 default aux_obs unscaled · F38 Gaussian dataset saved under another key than loaded ·
F39 cut with limit 0 ignored · F40 UpperLimitScan cl ignored · F41 interval fallback returns a y value · F42 QMuTilda calculator lacks tmu_0 · F43
tmu_debug sticky · F44 'scalar' switched persistently · F45 raster recomputes tmu unclipped · F46 TMuCalculator loses user bounds · F47 rebound
TypeError · F48 remove_nps default value in wrong units · F49 linear mode not preserved by remove_nps · F50 zero norm makes pruned model unusable · F51
value of wildcard ignored · F52 SamplePruner can empty a channel · F53 ChannelMerger overwrites impacts of the original · F54 norms of merged
samples not compared · F55 ModelMerger.check raises AttributeError; the merged object cannot compute yields · F56 NPPruner KeyError · F57 Formula never loads · F58
Gaussian channel saved as multi_bin · F59 options not saved · F60 duplicate samples dropped · F61 NPs held fixed in the covariance · F62 negative
variance gives nan silently · F63 scaling of values compounds · F64 log ranges never accepted · F65 'name=value:min' misread · F66 aux. obs. of
pseudo-data generated with the unscaled width · F67 Gaussian bins of pseudo-data generated with the inverse covariance · F68 pyhf import:
luminosity uncertainty read from the first measurement · F69 listed parameter without sigmas becomes free · F70 staterror uncertainties added
linearly · F71 histosys followed by normsys of the same name keeps two bins · F72 same-sign variation in one bin drops the systematic in all bins ·
F73 `--keep-same-sign` flips the other bins · F74 empty bin with a shape uncertainty KeyError · F75 luminosity central value ignored · F76
reparam: existing expression that uses a replaced POI leaves an unusable model · F77 new POI with the name of an expression accepted without effect · F78
ModelMerger counts the bins of a model once per channel · F79 ModelMerger ignores the names of NPs and POIs · F80 a channel of the same name
silently replaces that of the first model · F81 models with symmetric impacts cannot be merged · F82 compute_fast_limits uses an existing
raster file whatever the data, hypotheses and statistic, unless `--overwrite` · F83 a run stopped while writing leaves a file which makes every
later run fail even with `--overwrite` · F84 poi_scan: repeated hypotheses refused at the second run, and accepted for a raster with another
hypothesis · F85 poi_scan of a single hypothesis always IndexError · F86 prune_model without a dataset ends with KeyError (its branch for that case is unreachable) · F87 sampling p-values are
not conservative: p-values up to k/n have the chance (k+1)/(n+1), 0 included · F88 `set_poi_values_and_ranges` stores tuples where `ParBound` objects are expected: compute_limits fails at
the first toy · F89 bounds of a sampler are tested on start value minus fitted value · F90 a toy whose fit fails is given the best fit of an earlier toy ·
F91 the sampler compares the tested value with the fit of the first free POI of the model · F92 impacts given under the words 'pos'/'neg' are announced by `available_variations` but cannot be looked up · F93
`expected_pars` uses the NP values of a `Parameters` argument, contrary to its documentation · F94 merge_channels writes a model file that cannot be loaded (`ChannelMerger.merge` passes
the verbosity in place of the description, model_tools.py:286-288; TypeError in core.py:1216) · F95 fit_model `--regularize` always AttributeError
(fit_model.py:64) · F96 the uncertainties and correlations reported by fit_model ignore the covariance of Gaussian channels, the constraints of the NPs and the correlation
with the NPs (cf. F04, F61) · F97 the best-fit value that fit_model prints with a tested hypothesis is the one of the Asimov fit (0 for Gaussian models) · F98 values of NPs in
`--asimov` are accepted and have no effect · F99 a POI called `min_nll`, `min_pars` or `correlation_matrix` clashes with another entry of the report (also: `--iterations` is read and
not used, and `run` ignores its argument) · F100 starting without samples, no sequence of compute_limits runs ever produces samples or
results (F88 in the script) · F101 compute_limits generates the background toys with the first POI of the model at 0, and names it in the results, whichever POI is scanned ·
F102 compute_limits `--sethypo` always ends in ValueError (`plr_data.hypo.dict`, compute_limits.py:110) · F103 a scan with one point ends in IndexError · F104 compute_limits `--cl`
changes the number in the file and no limit · F105 with `-t q_mu` the toys are still p-values of q~mu (also: `--asimov` of compute_limits always ends in ValueError) · F106 `Samples.generate` (and so
`CLsSamples.generate`) always raises: `self.sampler` does not exist (sampling.py:349); the handler of `Samples.load` that reports the file raises NameError instead (`fname`, 327) · F107 a model with samples in a Gaussian channel cannot be cloned: `GaussianChannel.clone`
iterates over sample names (channels.py:636), AttributeError; with it `remove_nps(clone_model=True)` · F108 `Model.clone` resets the cutoff to 0, its docstring promises all options ·
F109 `PlotImpacts.impacts` never returns for a model with NPs: `minimizer.clone(pars)` (plot_tools.py:322) has one argument too many (minimizers.py:565) · F110 `merge_models.py` silently drops names of missing files
(`spec.find('*')` is -1, true: every name is given to glob, merge_models.py:38) · F111 a pattern that begins with `*` is not expanded (`find` gives 0) · F112 `--numeric-sort` does not see numbers after a
letter or underscore (`re.split('(\W)')`, merge_models.py:50) · F113 `vmin:vmax:n:log` gives n+1 values, and vmin = 1 is refused (iterate.py:40, collect_results.py:97) · F114 a range that is not
recognised (two fields, unknown fourth field) is taken as one text · F115 `collect_results.py` writes bands without their positions: longer than `positions` when a file has bands but no result ·
F116 a band that is not a number leaves lists of bands of unequal lengths (collect_results.py:147-153). In convert_ws.py, F117 samples that share a normalisation parameter are each given the yield of all of them (convert_ws.py:642-652); F118 `--samples` items that name a channel, the only documented form, always raise `UnboundLocalError` (575, 586); F119 a single name in `--samples` is the parameter of a sample without name (258-261); F120 packing leaves out null parameters, which then have only the variations ±1 for the model and trigger F07 when there are others (376-382); F121 `--binning xmin:xmax:n` alone gives n-1 bins and stops below xmax (117-127); F122 with two empty samples the validation data of the wrong sample are removed (523-525). A counting channel without `--samples` always raises `NameError` (594) · F123 dump_samples `--t-value` with any other text than `q_mu`, `q~mu` (for instance `t_mu`) draws the p-values on the axis -10..10, with a reference curve that adds up to 20 times the number of samples (also, not proved: submit_limit's make_parser does not return the parser, so that it always fails; plot.py without `--channel` iterates over None; dump_samples, plot, plot_valid, print_model and dump_debug ignore `argv`; dump_debug adds the auxiliary term it means to subtract) · F124 plot_valid switches `use_linear_nps` without computing the coefficients again (plot_valid.py:164-167): for a model loaded in the default, exponential form the curve labelled linear is log(1 + non-linear curve) and misses the stored points · F125 the error band of the sampling curves in the limit plots has both edges at the height of the error (scans.py:473: `up - nom`, `nom - dn` are filled): it has no area and is not around the curve · F126 `--bands 5` or more: plot_bands has five colours (sampling.py:210), `IndexError` after the limits are computed and before the output file is written · F127 `Raster.print(verbosity=0)` without keys prints as verbosity 1 (fit_data.py:641) · F128 datasets with auxiliary observables and rasters with p-values, which hold `np.float64`, are written to YAML with Python tags that `load` refuses (core.py:1514, fit_data.py:377) · F129 models with a `GaussianChannel` cannot be saved: the covariance is an array that is not converted (channels.py:686), `TypeError` in JSON after the file was emptied · F130 `save` opens the file before it knows that it can write: an unknown flavour or an object that cannot be written destroys the old file (base.py:66-69) · F131 `dump_markup` always raises (base.py:112)
