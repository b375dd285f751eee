# DESIGN: a Lean 4 model of fastprof

## Method

fastprof (Python, numpy, scipy) is modelled function by function in Lean 4 with selected Mathlib modules.

* `lean/Verif/Model/*.lean`: the model. Each definition cites the file and lines of `/repo` it models and states its
  simplifications.
* `lean/Verif/Spec/*.lean`: specifications that do not refer to the model (normal distribution, splines, ...).
* `lean/Verif/Props/*.lean`: the property theorems (`cNN_...` belongs to property `CNN` of `properties.jsonl`), with the
  small specification they use and examples showing that their hypotheses are met by non-trivial cases.
* `lean/Verif/Lemmas/*.lean`: helper lemmas and concrete demonstration models.
* `seeded/LOG.jsonl`: wrong programs (edited model definitions) and the theorems that reject them.
* `tools/`: scripts that generate `properties.jsonl`, `MANIFEST.json`, `LOG.jsonl` and the table below.

Where the code does not honour a property a user would expect, the property is stated with the restriction under which
it holds, and the defect is proved as a separate theorem (names ending in `_fails`, `_never`, `_lost`, ...): these are the
findings F01, F02, ... listed at the end. Such theorems are statements about the code as it is, with concrete witnesses.

## Trusted base

* Lean 4.33.0's kernel and the axioms `propext`, `Classical.choice`, `Quot.sound`; no theorem uses any other axiom
  (vcheck prints them). No `native_decide`, `bv_decide`, no own axioms.
* The reading of the code: nothing was executed; the theorems are about the model, which was written by hand from the
  source.
* Numbers: Python/numpy numbers are exact reals `ℝ` (or an arbitrary ordered field where only order and arithmetic
  matter). Rounding, overflow, signed zeros and denormals are not modelled. Where a finding is about `nan`/`inf`, numbers are
  `Flt` (finite real, infinities, nan; `Model/Flt.lean`); otherwise operations that would produce them are error values or
  excluded by a hypothesis (e.g. positive yields under a logarithm).
* Python dicts are insertion-ordered association lists (`Model/Dict.lean`); exceptions are values of `Except PyErr`.
  `PyErr.unmodelled` marks inputs outside the model. Object identity and aliasing are modelled only where the code mutates
  shared objects (`Reparam`, `Merge`); elsewhere objects are values. Python's recursion limit is a fuel parameter where the
  code recurses on data that may be cyclic (`Reparam`, `Markup`, `CmdLine`), and absent otherwise.
* `numpy.linalg.inv/det`: exact linear algebra (`LinAlgError` exactly on singular matrices). Broadcasting of length-1 arrays
  is not modelled (lengths are checked or assumed equal).
* `scipy.stats.norm/chi2`: Mathlib's Gaussian measure (`Spec/Dist.lean`). `InterpolatedUnivariateSpline`: an
  arbitrary interpolation satisfying the contract `SplineLib.Correct` (`Spec/Spline.lean`; shown satisfiable).
* `scipy.optimize`: what the optimiser did (sequence of evaluated points, result, success) is arbitrary; in C57-C59 it is an
  arbitrary deterministic function of the problem.
* Files: the text of JSON/YAML files is not modelled, only the decoded dictionaries (`MVal`). The lock protocol (C29, C30) is a
  transition system with atomic `exists`/`open`/`remove`/`save` steps and crashes between any two of them.
* `float()`, `int()` and regular expressions on the command line are arbitrary functions (C63).
* Random numbers: toys are an arbitrary stream of outcomes (C31), samples arbitrary lists; in C64, C75 and C76 they are ideal independent draws from
  the distributions asked for.

## What is modelled

| file of `/repo/src` | modelled | not modelled |
|---|---|---|
| `fastprof/base.py` | `load_field`, markup of POIs, aux. observables, NPs, scaling, `ModelNP`, `generate_aux` (as a distribution) | `guess_flavor`, text dump/parse |
| `fastprof/core.py` | `Parameters`; `Model`: construction of internal arrays, `k_exp`, `cut_k_exp`, `n_exp`, `tot_bin_exp`, `nll`, `gradient`, `hessian`, covariance, errors, correlations, `linear_impacts`, Asimov data, `generate_data` (as a distribution), markup; `Data` | string output, plotting, `set_constraint` and `Parameters.set_from_aux`/`partial_dict` (raise `AttributeError`/`NameError`) |
| `fastprof/channels.py`, `sample.py`, `norms.py`, `expressions.py` | all classes that load; `Formula` only to the extent that loading it fails | the evaluation of `Formula`, string output |
| `fastprof/minimizers.py` | `NPMinimizer`, `POIMinimizer`, `OptiMinimizer` | `ScanMinimizer`, debug output |
| `fastprof/model_tools.py` | `ModelMerger`, `ChannelMerger`, `ModelReparam` (without regular expressions for the POIs to remove), `NPPruner`, `SamplePruner`, `ParBound` | see the table for the other tools |
| `fastprof/test_statistics.py`, `calculators.py` | all statistics and calculators | text output |
| `fastprof/sampling.py`, `samplers.py` | distributions, CLs, bands, lock protocol, `Sampler.generate`, `OptiSampler` | random numbers, debug CSV, `ScanSampler` and `LimitSampler` (raise `AttributeError`) |
| `fastprof/fit_data.py`, `scans.py` | `FitParameter`, `FitResult`, `PLRData`, `Raster`, hypotheses; scans, limits, intervals, resampling, 2D best fit | plotting, contours, `print` |
| `fastprof_utils/reparam_model.py` | the changes of the model (146-194) | parsing of the options |
| `fastprof_utils/merge_models.py` | input files, sorting, loading, sample pruning, merging, saving | messages; `glob` is a parameter |
| `fastprof_utils/iterate.py`, `collect_results.py` | positions, commands, collection, content of the output file | messages, ROOT output, plots, infinite and undefined numbers |
| `fastprof_import/convert_ws.py` | option parsers (binning, channels, samples, variations), samples of a channel, yields and impacts, packing, selection of the samples and validation data that are written | RooFit (PDF integrals, fits, datasets, ranges of variables), identification of the constraint terms, file output |
| `fastprof_utils/prune_model.py` | the whole script, on decoded files | file names, messages |
| `fastprof_utils/merge_channels.py` | the whole script (option text, merges, both output files), on decoded files | file names, messages; the position of the `description` entry in the output |
| `fastprof_utils/fit_model.py` | the whole script, on decoded files: options, model, dataset, fit, report, test of a hypothesis | file names, texts printed (except the values printed about the hypothesis), plots, timing |
| `fastprof_utils/compute_limits.py` | the run on decoded files: rasters of the fits file, options, samplers, samples on disk, p-values, bands and limits, results file | selection of the dataset, `--bounds` parser, plots and printout, `--debug` |
| `fastprof_utils/compute_fast_limits.py`, `poi_scan.py` | computing, storing and reusing the raster | option parsing other than the hypotheses, output of the limits |
| `fastprof_utils/tools.py` | `process_setvals`, `process_setval_list`, `process_setranges`, `process_pois`, range parsing | messages |
| `fastprof_import/convert_pyhf_json.py` | the conversion of decoded workspaces to markup | measurement index counted from the end, missing or ill-typed entries, YAML output, validation data |
| `fastprof/plot_tools.py`, and object identities | `PlotImpacts.impacts` up to its first fit; `Model.clone`, channel and sample clones, `remove_nps` with `clone_model`, on a heap (Model/Clone.lean) | plotting |
| `fastprof_utils/dump_samples.py` | the whole script: options, values drawn, histogram, reference curve | drawing; the numerical integration is the integral |
| `fastprof_utils/plot_valid.py` | loading of the validation file, choice of channel, sample, bins and NPs, points and curves of each panel | drawing, titles, files, inversion plots |
| limit plots, `plot_bands`, `Raster.print`, `PlotImpacts` | points, areas and their order, colours, rows and columns, heights | axes, labels, number formats |
| `Serializable.save/load/unnumpy/guess_flavor` | kinds of Python objects, what JSON and YAML make of them, contents of files, failures and interruptions | the text, other keys than strings, reading in another flavour |
| other command scripts and importers | - | everything not named in the table |

