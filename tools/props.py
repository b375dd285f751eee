import json
P=[]
def p(id,title,statement,quant,why,anchors):
    P.append(dict(id=id,title=title,statement=statement,quantifier=quant,why_tests_cant=why,anchors=anchors))
p("C01","Nuisance-parameter scaling is a bijection",
  "For a nuisance parameter with a nonzero variation, converting a scaled pull to a physical value and back (and the converse) returns the starting number; the nominal physical value corresponds to pull 0, and one variation above nominal corresponds to pull 1; the pull-space constraint is the physical one divided by the variation.",
  "all nuisance parameters with nonzero variation, all real values","infinitely many (nominal, variation, value) triples; a test samples a few",
  ["src/fastprof/base.py: ModelNP.scaled_value, ModelNP.unscaled_value, ModelNP.scaled_constraint"])
p("C02","Markup load/save of POIs, auxiliary observables and NPs round-trips",
  "Saving a POI, auxiliary observable or NP to markup and loading it again gives an object with the same attributes. (The code honours this only for objects whose optional attributes are set or equal their load-time defaults; attributes that are None come back as the default.)",
  "all objects of the three classes, all attribute values","every combination of present/absent fields and values matters",
  ["src/fastprof/base.py: Serializable.load_field, ModelPOI.load_dict, ModelPOI.fill_dict, ModelAux.load_dict, ModelAux.fill_dict, ModelNP.load_dict, ModelNP.fill_dict"])
p("C03","Parameters behave like a map from names to values",
  "After any history of assignments to known parameter names, reading a name returns the last value assigned to it (or its initial value), no other parameter changes, the numbers of POIs and NPs stay the same, and an unknown name raises KeyError and changes nothing.",
  "all models, all finite sequences of assignments, all names","unbounded histories of mutations of shared arrays",
  ["src/fastprof/core.py: Parameters.__getitem__, Parameters.__setitem__, Parameters.set"])
p("C04","Parameter dictionaries round-trip",
  "Exporting a parameter point to a dictionary (scaled or unscaled NPs) and reading it back with the same convention reproduces every POI and NP value; a dictionary lacking one of the model's parameters raises KeyError.",
  "all models with nonzero NP variations, all parameter points","all sizes and all values",
  ["src/fastprof/core.py: Parameters.dict, Parameters.set_from_dict, Parameters.unscaled_nps"])
p("C05","Expression gradients are the true partial derivatives",
  "For every list of expressions (number, single parameter, linear combination, product/ratio, exponential) built so that each refers only to POIs or earlier expressions, the gradient the expression reports with respect to the POIs at a point equals the vector of partial derivatives of its value at that point, wherever its denominators do not vanish.",
  "all well-ordered expression lists of any length, all points where denominators are nonzero","requires exact calculus for all expression DAGs and all points, numerical differences only approximate",
  ["src/fastprof/expressions.py: value/gradient of SingleParameter, LinearCombination, ProductRatio, Exponential","src/fastprof/core.py: Model.real_vals"])
p("C06","Expression Hessians are the true second derivatives",
  "The Hessian an expression reports equals the matrix of second partial derivatives of its value (where no factor of a product vanishes) and is symmetric.",
  "all well-ordered expression lists, all points where factors are nonzero","as C05",
  ["src/fastprof/expressions.py: hessian of LinearCombination, ProductRatio, Exponential"])
p("C07","Fixing parameters of a model does not change its predictions",
"When removing POIs from a model succeeds, every quantity left in the model has, at every point, the value it had in the old model at the point where each removed POI has the number it was replaced by; all quantities that normalise samples are kept, and nothing depends on the removed POIs any more. Replacing a parameter inside one expression returns a number only if that is the value of the expression, and changes no value at the replacement point. On models without products it always succeeds.",
"all models (any number of POIs, NPs and nested expressions), all lists of removed POIs, all replacement values, all points, any recursion depth",
"arbitrary nesting of shared, mutated sub-expressions, and all values and points",
["src/fastprof/expressions.py: SingleParameter.replace, LinearCombination.replace, ProductRatio.replace, Exponential.replace","src/fastprof/model_tools.py: ModelReparam.remove_pois, remove_expressions, remove_from_norms"])
p("C08","Impact interpolation reproduces every supplied variation",
  "The polynomial built from the +n sigma (resp. -n sigma) variations of a sample in a bin takes, at each supplied variation, exactly the relative impact that was supplied (linear mode) or its log-normal equivalent (exponential mode), and is 0 at pull 0. (Defects proved: with different numbers of variations the stored coefficients are scrambled; variations named by the words 'pos' and 'neg' are announced but cannot be used.)",
  "all numbers of distinct nonzero variations, all impacts, all bins","any number of variation points; floating-point tests check one or two",
  ["src/fastprof/sample.py: Sample.impact_coefficients, Sample.interpolate_impact"])
p("C09","Yields at nominal nuisance parameters are the nominal yields",
  "With every NP at pull 0 the per-sample correction factor is exactly 1 in every variation mode, so the expected yield of a sample in a bin is its nominal yield times its normalisation ratio; with the POIs at their nominal point it is the nominal yield itself.",
  "all models, all impact coefficients, both linear/log-normal modes and both symmetric/asymmetric modes","all models",
  ["src/fastprof/core.py: Model.k_exp, Model.n_exp"])
p("C10","Log-normal yields stay positive and cut-off yields stay within the cutoff",
  "In log-normal mode every correction factor is strictly positive whatever the pulls, and with a cutoff c every correction factor differs from 1 by strictly less than c, is increasing in the uncut factor and agrees with it to first order at 1.",
  "all pulls, all coefficients, all cutoffs","unbounded range of pulls",
  ["src/fastprof/core.py: Model.k_exp, Model.cut_k_exp"])
p("C11","Channel offsets partition the bins",
  "The bin ranges of the channels are consecutive, disjoint and cover exactly the model's bins, so the concatenation of the per-channel expected yields (or data) is the model's vector, each bin belonging to exactly one channel; Poisson channels come before the Gaussian ones.",
  "all channel lists with any bin counts","any number of channels of any sizes",
  ["src/fastprof/core.py: Model.set_internal_vars, Model.channel_n_exp"])
p("C12","Only consistent counts and auxiliary observables are accepted",
  "Setting the observed counts of a dataset succeeds exactly for an empty vector (all counts 0) and for one entry per model bin (stored as it is). Auxiliary observables are accepted exactly if there are none, one per NP or one per constrained NP, any other length raising ValueError; what is stored always has one entry per NP, and compact values land on the constrained NPs in order, free NPs getting their nominal value. (Counterexamples proved: a wrong number of counts raises NameError; the default values are unscaled although they are read as pulls.)",
  "all models, all vectors of counts and of auxiliary observables of any length, all constrained/free patterns","all patterns of free/constrained NPs and all lengths",
  ["src/fastprof/core.py: Data.set_counts, Data.set_aux_obs"])

p("C13","Datasets round-trip through markup",
  "On a model without Gaussian channels, with distinct channel names and distinct auxiliary observables, a saved dataset always loads again in the same model: each count comes back truncated to an integer (so integer counts exactly), and each auxiliary observable exactly. (Counterexample proved: a dataset of a model with a Gaussian channel can never be loaded again.)",
  "all models with any number and kind of channels and NPs, all datasets","all models/datasets; the counterexamples are specific",
  ["src/fastprof/core.py: Data.load_dict, Data.fill_dict","src/fastprof/channels.py: load_dataset_dict, save_dataset_dict of all channel classes"])

p("C14","The reported NLL gradient is the derivative of the NLL with respect to the POIs",
  "For a model with Poisson channels, at any point where all expected yields are positive, the gradient returned for the POIs equals the vector of partial derivatives of the NLL.",
  "all models, datasets, parameter points","all models and points",
  ["src/fastprof/core.py: Model.gradient, Model.nll"])
p("C15","The reported NLL Hessian is the second derivative of the NLL",
  "Likewise the returned Hessian equals the matrix of second partial derivatives of the NLL with respect to the POIs; it is symmetric.",
  "all models, datasets, parameter points","all models and points",
  ["src/fastprof/core.py: Model.hessian"])
p("C16","The NLL offset cancels in differences",
  "The difference of NLL values between any two parameter points is the same with or without the offset option, for the same dataset.",
  "all models with positive nominal yields, datasets, pairs of points","all pairs of points",
  ["src/fastprof/core.py: Model.nll"])
p("C17","An Asimov dataset is best described by the parameters that generated it",
  "For the Asimov dataset of a parameter point the NLL at that point is less than or equal to the NLL at every other parameter point with positive expected yields, so the profile likelihood ratio at that point is 0.",
  "all models, generating points and competing points","global minimum over a continuum of points",
  ["src/fastprof/core.py: Model.generate_asimov, Model.generate_expected, Model.nll"])
p("C18","Nuisance-parameter profiling minimises the quadratic approximation",
  "With the default options (no log-normal second-order terms; for Poisson channels also with them, except for semi-definiteness and the minimum) the linear system solved to profile the NPs is the stationarity condition of the second-order (linearised-yield) approximation of the NLL around the hypothesis; its matrix is symmetric positive semi-definite, and when the system is invertible the returned NPs are the unique global minimum of that approximation over all NP values.",
  "all models, hypotheses, datasets, NP counts","global optimality over all NP values in any dimension",
  ["src/fastprof/minimizers.py: NPMinimizer.pq_poisson, pq_gaussian, pq, profile"])
p("C19","Profiling is exact for Gaussian channels with linear impacts",
  "For a model made of Gaussian channels whose impacts are linear and symmetric, a single profiling step from the nominal NPs gives the exact global minimum of the NLL over all NP values.",
  "all such models, datasets and hypotheses","global optimality over a continuum",
  ["src/fastprof/minimizers.py: NPMinimizer.profile, pq_gaussian","src/fastprof/core.py: Model.nll, Model.k_exp"])
p("C20","The profile-likelihood-ratio statistic is never negative",
  "The t_mu value returned by a POI minimizer is non-negative, and equals twice the NLL difference between the hypothesis and free fits whenever the free fit is at least as good.",
  "all fit outcomes","all real NLL pairs and failure combinations",
  ["src/fastprof/minimizers.py: POIMinimizer.tmu"])
p("C21","Initial POI values always respect the bounds used in the fit",
  "For any model POIs, initial values and overriding bounds with min <= max, the bounds used are the overriding ones where given (a zero-width interval at the hypothesis for fixed POIs) and the starting values lie within them.",
  "all POI lists, bounds, initial values","all combinations of bounds",
  ["src/fastprof/minimizers.py: POIMinimizer.set_pois"])
p("C22","Combining parameter bounds is intersection",
  "The conjunction of two bounds on the same parameter accepts exactly the values accepted by both; it is commutative, associative and idempotent up to acceptance; a bound is fixed exactly when it accepts a single value.",
  "all pairs of bounds with any endpoints missing, all values","all endpoint patterns and values",
  ["src/fastprof/model_tools.py: ParBound"])
p("C23","Asymptotic p-values are probabilities that decrease with the test statistic",
  "For the t_mu, q_mu and q~_mu statistics the asymptotic p-value lies strictly between 0 and 1 and is non-increasing (strictly decreasing for q_mu, q~_mu) in the statistic.",
  "all statistic values and non-centrality parameters","all real values",
  ["src/fastprof/test_statistics.py: TMu.asymptotic_pv, QMu.asymptotic_pv, QMuTilda.asymptotic_pv"])
p("C24","The q~_mu p-value joins continuously at its threshold and agrees with q_mu below it",
  "Below its threshold the q~_mu asymptotic p-value is the q_mu one; at the threshold the two formulas agree, so the p-value is continuous and strictly decreasing across it.",
  "all thresholds, all non-centralities","behaviour at a measure-zero boundary for all parameters",
  ["src/fastprof/test_statistics.py: QMuTilda.asymptotic_pv, QMuTilda.threshold"])
p("C25","Statistic-from-p-value inverts p-value-from-statistic",
  "Computing the statistic from a p-value and the p-value back returns the starting p-value, for q_mu at every hypothesis. (For q~_mu the code's inverse compares in the wrong units and fails between sqrt(threshold) and threshold.)",
  "all p-values in (0,1), all non-centralities","continuum of values",
  ["src/fastprof/test_statistics.py: QMu.asymptotic_ts, QMuTilda.asymptotic_ts"])
p("C26","CLs lies between CLs+b and 1",
  "The CLs value is never smaller than the p-value it is built from, is at most 1 whenever the background p-value is at least the signal one, and is 1 when the background p-value is 0.",
  "all statistic values","continuum of values",
  ["src/fastprof/test_statistics.py: QMu.asymptotic_cls, QMu.asymptotic_clb"])
p("C27","Sampled p-values are the mid-rank fraction",
  "The p-value of an observed statistic from a sampling distribution of size n is (number strictly below + number at or below)/(2n) of sorted samples, lies in [0,1], is monotone in the observed value, and does not depend on the order in which the samples were generated.",
  "all sample lists of any size, all observed values","all sample multisets and orders",
  ["src/fastprof/sampling.py: SamplingDistribution.pv, SamplingDistribution.sort"])
p("C28","Sampling quantiles are samples and monotone",
  "For every fraction in [0,1) the returned quantile is one of the samples, at least the claimed fraction of samples lie at or below it, and quantiles are monotone in the fraction.",
  "all sample lists, all fractions","all sizes",
  ["src/fastprof/sampling.py: SamplingDistribution.quantile"])
p("C29","Completed sampling results are never regenerated or overwritten by later jobs",
  "Across any number of concurrent processes generating the same samples with locks, in any interleaving with crashes: once a result file for a hypothesis exists, a process that starts afterwards only loads it; a process that finds a lock never writes. (Mutual exclusion itself fails: two processes may both see no lock.)",
  "all numbers of processes, all interleavings and crash points","schedules and crash points are unbounded",
  ["src/fastprof/sampling.py: Samples.generate_and_save"])
p("C30","A crashed sampling job is recoverable",
  "A crash during generation never leaves a partial result considered complete by the protocol; the lock left behind makes later jobs skip the hypothesis unless locks are broken, and a job run alone with lock-breaking enabled completes the hypothesis and leaves no lock.",
  "all crash points, all later histories","crash points and histories",
  ["src/fastprof/sampling.py: Samples.generate_and_save"])
p("C31","Toy generation returns exactly the requested number of results or reports failure",
  "If generation returns a distribution it has exactly the requested number of entries, each a successful computation, in the order produced. Termination: after the allowed number of failed tries generation stops. (The code does not: it prints and keeps looping.)",
  "all outcome sequences of the toys","unbounded sequence of failures",
  ["src/fastprof/samplers.py: Sampler.generate"])
p("C32","Models survive being saved and loaded",
  "A model without Gaussian channels whose POIs have their bounds and initial value set and whose samples have one yield per bin can be saved, and loading what was saved gives back the same object: same POIs, NPs, auxiliary observables, expressions, channels, bins, samples, impacts, and hence the same result of every computation. This holds for models loaded from any markup (including the auxiliary observables and norm impacts that loading adds by itself) and for models made with the constructor with default options. (Counterexamples proved: options such as use_linear_nps are not saved; a Gaussian channel comes back as a Poisson channel; no model with a Formula can be loaded; a second load into the same object raises ValueError as soon as there is an expression; a repeated sample name silently drops a sample; an expression whose name reads as a number cannot be loaded back.)",
  "all markup dictionaries that load, all constructed models","the markup is a tree of unbounded size, and the property is an identity after two changes of representation and the completion of samples by the model",
  ["src/fastprof/core.py: Model.load_dict, Model.fill_dict","src/fastprof/sample.py: Sample.load_dict, Sample.fill_dict, Sample.set_np_data","src/fastprof/channels.py: load_dict, fill_dict of the channel classes","src/fastprof/norms.py: Norm.instantiate","src/fastprof/expressions.py: Expression.instantiate, load_dict, fill_dict"])
p("C33","Merging channels changes neither predictions nor likelihood",
  "Merging single- or multi-bin channels gives a model with the same parameters whose predictions, for all parameter values, are those of the original: unmerged channels have the same yields, and the yields of the merged channel are those of the inputs in the order of the call. Merging the data keeps every count in the same way, and the likelihood of the merged model on the merged data equals the original one, with or without offset, floor and constraints. Calls that name an unknown or binned-range channel give no model. (Counterexamples proved: the impacts of the original model are overwritten by the merge; a multi-bin channel whose impacts are not given bin by bin gives a model that is refused; samples of the same name with different normalisations are merged under the first one.)",
  "all models with impacts at one standard deviation, all selections and orders of channels, all datasets and parameter values","the numbers of channels, bins, samples and NPs are unbounded, and the equality is between functions of real parameters",
  ["src/fastprof/model_tools.py: ChannelMerger.check, ChannelMerger.merge, ChannelMerger.merge_data"])
p("C34","Removing a nuisance parameter fixes its effect",
  "Removing NPs from a model at given values gives a model whose predictions equal those of the original with the NPs held at those values, for all values of the other parameters (in the default exponential mode without floor, and for samples whose normalisation is not zero at the initial POI values). Unknown names raise KeyError. (Counterexamples proved: in linear mode the predictions change; without a value the NP is held at its unscaled nominal value read as a pull; the value of a wildcard is ignored; a NP selected twice raises KeyError.)",
  "all models, NPs and values","all models",
  ["src/fastprof/model_tools.py: NPPruner.remove_nps"])
p("C35","Hypotheses work as dictionary keys",
  "Two equal POI hypotheses have equal hashes, so that looking up a hypothesis in a raster finds the entry last stored under an equal hypothesis. (True when the POIs are listed in the same order; the hash depends on the order, the equality does not.)",
  "all histories of assignments to a raster, all hypotheses, every hash function of the interpreter","string hashes are randomised in each process, and histories are unbounded",
  ["src/fastprof/fit_data.py: POIHypo.__eq__, POIHypo.__hash__"])
p("C36","Fit results reproduce the fitted parameters",
  "Storing fitted parameters in a fit result and asking for the parameters of the same model returns the same POI and NP values (with a hypothesis: its values for the POIs it names); the same holds after saving the result and loading it again.",
  "all models with nonzero NP variations, all parameter points","all values",
  ["src/fastprof/fit_data.py: FitResult.__init__, FitResult.pars"])
p("C37","All hypotheses of a raster are compared to the same best fit",
  "After setting the global best fit, the statistic of every hypothesis is computed against the smallest free-fit NLL among the hypotheses, hence is non-negative. (The code compares each hypothesis to its own free fit: the claim holds exactly when all free fits have the same NLL.)",
  "all rasters","all sizes and NLL patterns",
  ["src/fastprof/fit_data.py: Raster.set_global_best_fit, Raster.compute_tmu, PLRData.compute_tmu"])
p("C38","Scan minimum and maximum are attained and bound all points",
  "A scan can be built only on a raster that has a value for its key at every hypothesis (KeyError otherwise). The minimum (maximum) of a scan is the value at one of the scanned hypotheses, is a lower (upper) bound for all of them, and the hypothesis returned is the first where it is attained. Values with errors are shifted by the requested number of errors.",
  "all rasters, all keys","all lengths and values",
  ["src/fastprof/scans.py: Scan.__init__, Scan.value, Scan.minimum, Scan.maximum"])
p("C39","Saved datasets are read back by channel name, and their binning is checked",
  "Channels and auxiliary observables of a dataset file are found by name: permuting them in the file changes neither the dataset loaded nor the outcome, and a missing channel or auxiliary observable raises ValueError. A dataset is accepted only if the bins of the file are those of the model channel (same number, same edges or names, in order), and the counts then stored at the channel's position are those of the file.",
  "all models, all dataset files, all permutations of their entries","all permutations and all file contents",
  ["src/fastprof/core.py: Data.load_dict","src/fastprof/channels.py: load_dataset_dict of the channel classes"])

p("C40","Expression evaluation depends only on earlier definitions",
  "Evaluating the expressions of a model in order succeeds exactly when each refers only to parameters or earlier expressions, and the value of an expression is unaffected by expressions appended after it; a reference to a later or unknown name raises KeyError.",
  "all expression lists","all lists",
  ["src/fastprof/core.py: Model.real_vals, Model.real_val","src/fastprof/expressions.py"])
p("C41","A sample normalised by a nuisance parameter scales with it",
  "If the normalisation of a sample is a nuisance parameter and no explicit impact is given for it, the expected yields at any pull are the nominal ones times the physical value of that parameter over the nominal norm (linear impacts).",
  "all models with one up and one down variation per NP, all pulls, all bins","a continuum of pulls and models of any size",
  ["src/fastprof/norms.py: ExpressionNorm.implicit_impact","src/fastprof/sample.py: Sample.set_np_data","src/fastprof/core.py: Model.n_exp"])
p("C42","A fit moves only the parameters it may move",
  "In any POI fit a POI whose bound has zero width keeps its start value, in particular the hypothesis fit of the profile likelihood ratio keeps every POI of the hypothesis at its hypothesis value; if the optimiser stays in the box it was given, every best-fit POI lies within the bound used for it, so each optimiser coordinate lands on the POI whose bound it was given.",
  "all models, bounds, hypotheses, and all behaviours of the optimiser","unit tests run one optimiser on one model; the statement is about every sequence of evaluations and every pattern of fixed POIs",
  ["src/fastprof/minimizers.py: OptiMinimizer.minimize, POIMinimizer.tmu, POIMinimizer.set_pois"])
p("C43","The best-fit point and the best-fit NLL belong together",
  "After a successful POI fit the stored best-fit NLL is the minimum the optimiser reported (the NLL of the profiled start point if no POI is free), and the stored best-fit parameters are the profiled ones of the last point it looked at: they have the stored NLL exactly if the NLL of that last point is the reported minimum. (Counterexample proved: the optimiser may look elsewhere after finding the minimum, and the best-fit parameters are then not the best fit.)",
  "all fits, all behaviours of the optimiser","depends on the order of the optimiser's evaluations",
  ["src/fastprof/minimizers.py: OptiMinimizer.minimize"])
p("C44","A fit can be repeated",
  "Calling the minimiser again with the same bounds and optimiser behaviour gives the same result. (True with at least one free POI; with none the second call raises ValueError.)",
  "all fits","all models, histories of calls",
  ["src/fastprof/minimizers.py: OptiMinimizer.minimize"])
p("C45","CLs orders observations like the test statistic",
  "For two observations tested at the same non-zero POI value with the same Asimov value, the one with the larger q_mu (or q~_mu) statistic has the strictly smaller asymptotic CLs.",
  "all pairs of statistic values, all positive Asimov values","a continuum of values; the ratio of two tails is monotone only because of a property of the normal distribution",
  ["src/fastprof/test_statistics.py: QMu.asymptotic_cls, QMuTilda.asymptotic_cls"])
p("C46","The asymptotic density is the derivative of the asymptotic p-value",
  "At every non-zero statistic value the q_mu and q~_mu asymptotic density is minus the derivative of the asymptotic p-value with respect to the statistic, including at the q~_mu threshold.",
  "all statistic values except 0, all non-centralities and positive thresholds","derivatives at a continuum of points",
  ["src/fastprof/test_statistics.py: QMu.asymptotic_pdf, QMuTilda.asymptotic_pdf"])
p("C47","The sampled CLs is the ratio of the two sampled p-values",
  "The CLs computed from sampling distributions is the sampled p-value at the tested hypothesis divided by the sampled p-value at the zero-signal hypothesis, both at the observed statistic (1 if the latter is 0); a hypothesis without samples raises KeyError; the quoted error is the one of the two p-values combined in quadrature.",
  "all sampling distributions, hypotheses and observed values","all samples",
  ["src/fastprof/sampling.py: CLsSamples.cl, CLsSamples.pv"])
p("C48","Expected bands are ordered",
  "The expected-limit bands computed from the zero-signal samples are ordered: a higher number of standard deviations never gives a smaller statistic value.",
  "all sample sets and bands","all samples",
  ["src/fastprof/sampling.py: Samples.bands, CLsSamples.bands, SampDist.quantile"])
p("C50","Rasters survive being saved and loaded",
  "Saving a raster and loading it gives the same hypotheses in the same order with the same test statistics, p-values, NLL values and fitted parameters. (The NPs of the stored full hypothesis are lost.)",
  "all rasters built from fits at different hypotheses, every hash function of the loading process","all sizes, models and values",
  ["src/fastprof/fit_data.py: Raster.load_dict, Raster.fill_dict, PLRData.load_dict, PLRData.fill_dict, FitResult.load_dict, FitResult.fill_dict"])
p("C51","Asimov values are attached to the right hypotheses",
  "Attaching an Asimov raster stores at each hypothesis the Asimov statistic of the same hypothesis, changing nothing else; rasters of different sizes raise KeyError. (True when both rasters list the hypotheses in the same order; entries are paired by position.)",
  "all pairs of rasters","all sizes and orders",
  ["src/fastprof/fit_data.py: Raster.set_asimov, PLRData.set_asimov"])
p("C52","A key reported as filled can be read everywhere",
  "A raster reports a key as filled exactly when every hypothesis has it as a p-value or a statistic, and then reading it at any hypothesis of the raster succeeds with that value. (Restricted to p-values only or statistics only, the test always answers yes.)",
  "all rasters and keys","all contents",
  ["src/fastprof/fit_data.py: Raster.is_filled, Raster.key_value"])
p("C49","Cutting a sampling distribution keeps exactly the samples within the limits",
  "Cutting with non-zero lower and/or upper limits keeps exactly the samples within the limits, ends included, with their multiplicity and in order, and p-values are then mid-rank fractions among them. (Counterexample proved: a limit equal to 0 is silently ignored.)",
  "all collections of samples, all limits, all observed values","all samples and limits",
  ["src/fastprof/sampling.py: SamplingDistribution.cut"])

p("C53","A floor on the yields only raises yields that are too small",
  "With a floor, the total yield of every Poisson bin is the larger of the floor and the yield without it, the Gaussian bins are unchanged, and with a positive floor the NLL without offset is finite at every point where the yields can be computed.",
  "all models, all parameter values, all floors","all models and parameter values",
  ["src/fastprof/core.py: Model.tot_bin_exp, Model.nll"])

p("C54","Upper limits are crossings of the p-value curve",
  "With at least 4 positive p-values at increasing POI values, the upper limit reported lies in the scanned range and is the first point where the curve interpolating the p-values equals 0.05; it is found whenever one p-value is above and another one below 0.05. With errors, the three values are crossings of the central curve and of the curves shifted by one error up and down. (Counterexamples proved: the requested confidence level is ignored and 0.05 is always used; with 2 or 3 points no limit is ever found, with fewer TypeError.)",
  "all rasters with any number of points, all interpolations with the documented behaviour of scipy splines","all numbers of points and all p-values; the interpolation library is arbitrary",
  ["src/fastprof/scans.py: Scan1D.crossings, Scan1D.interpolate_crossings, UpperLimitScan.limit, UpperLimitScan.__init__"])
p("C55","Likelihood intervals end where the scan reaches the level of the confidence level",
  "The ends of the interval reported (central value plus positive error, minus negative error) lie in the scanned range and the interpolated curve is at the requested level there; with at least 5 points the central value is a stationary point of the curve within the range, the lowest of those found. The level for a confidence level and the confidence level reported for that level are inverse to each other, in 1 and 2 dimensions, and n standard deviations mean the same confidence level in both. (Counterexample proved: with 2 to 4 points the central value returned is the test statistic of the smallest hypothesis, not a POI value.)",
  "all rasters, levels, confidence levels and numbers of standard deviations, all interpolations with the documented behaviour of scipy splines","all numbers of points and values",
  ["src/fastprof/scans.py: PLRScan1D.interval, PLRScan1D.cl, PLRScan2D.cl, Scan1D.minima"])

p("C56","For a Gaussian measurement the asymptotic p-values, CLb and CLs are the exact probabilities",
  "When the profile-likelihood ratio is that of a Gaussian measurement x of the parameter with known width (t = ((x-mu)/sigma)^2), the two-sided p-value is the probability of a measurement at least as far from mu, the one-sided p-value the probability of a measurement at or below x, CLb the same probability under the background, CLs their ratio, and the p-value for the parameter bounded at zero is also exact provided the statistic at zero is supplied. (The calculator never supplies it: exact for non-negative best fits, and proved too small for negative ones.)",
  "all true values, widths, measurements and tested hypotheses","continuum of real inputs and an integral over a Gaussian",
  ["src/fastprof/test_statistics.py: TMu, QMu, QMuTilda","src/fastprof/calculators.py: make_q"])

p("C57","A minimiser can be used again and again",
  "A minimiser with no alternate method, no rebound option and at least one free POI, and whose method is not 'scalar' unless exactly one POI is free, gives for each tmu call the result (or exception) that a new minimiser with the same settings would give, after any sequence of successful calls on any datasets, start points and hypotheses. (Proved about the excluded cases: with two free POIs the default method is switched for good and the same call made twice can give two values; the rebound option raises TypeError whenever it is needed; an alternate method once used stays in use.)",
  "all sequences of calls of any length, all models, datasets, start points, hypotheses and optimisers","all histories of calls",
  ["src/fastprof/minimizers.py: POIMinimizer.tmu, OptiMinimizer.tmu, OptiMinimizer.minimize, POIMinimizer.set_pois"])
p("C58","Results for a list of hypotheses are those of each hypothesis alone",
  "compute_fast_results on a list of distinct hypotheses stores, in the order of the list, at each hypothesis the fits, statistics and p-values of a computation for that hypothesis alone by a fresh minimiser (up to the clipping of a negative tmu at 0, which the raster does not make); they do not depend on the other hypotheses nor on their order, and recomputing a computed raster on the same data gives the same raster. The stored p-value, CLb and CLs are the asymptotic ones of the stored tmu, Asimov tmu, best-fit and tested values, for each of the three calculators.",
  "all lists of hypotheses of any length, all models, data and optimisers, any reusable minimiser","all lists of hypotheses and histories",
  ["src/fastprof/calculators.py: TestStatisticCalculator.compute_fast_results, compute_fast_q, compute_fast_plr, fill_pv, recompute_raster"])
p("C59","The free-fit options of the two-sided calculator",
  "Whatever the free_fit option, the fit with the hypothesis fixed is at every hypothesis the one of a computation for this hypothesis alone; with 'all' the results are those of the general method; with 'best_fixed_fit' the common reference is the smallest NLL among the hypotheses, so that tmu is never negative and vanishes at one hypothesis; any other option raises ValueError. (Proved too: bounds given by the user to the minimiser are ignored by this calculator.)",
  "all lists of hypotheses, models, data and optimisers","all lists of hypotheses",
  ["src/fastprof/calculators.py: TMuCalculator.compute_fast_results"])

p("C60","Pruning samples by significance only removes negligible samples",
  "The sample pruner removes a sample from a channel only if its nominal yields, on top of the other samples, have a significance below the threshold, in which case the square of the yield it removes is bounded bin by bin by the square of the threshold times the total; small samples are removed; a sample that is alone in a channel is never removed; the predictions of the remaining samples are unchanged, and the predicted total of a channel changes exactly by the removed samples. (Counterexample proved: samples are tested one by one against the full total, so a channel can lose all its samples.)",
  "all models, all thresholds, all yields and parameter values","continuum of yields, all numbers of bins and samples",
  ["src/fastprof/model_tools.py: SamplePruner.prune, SamplePruner.total_significance"])
p("C61","Pruning small nuisance parameters removes exactly those with small impacts",
  "The NP pruner removes the NPs whose symmetrised impacts on all samples and bins are strictly within the threshold, and no others; the result is that of removing these NPs without values. (Counterexample proved: a sample without an impact for a small NP makes the pruning raise KeyError.)",
  "all models and thresholds","all sizes and values",
  ["src/fastprof/model_tools.py: NPPruner.prune"])

p("C62","Covariances, errors and correlations of the POIs describe the curvature of the likelihood",
  "The covariance matrix of the POIs is the inverse of the matrix of second derivatives of the NLL with respect to the POIs (at the given values of all parameters), and is absent exactly if there is no such matrix or the NLL is flat in some direction. Where the second derivatives are positive definite, each parabolic error is the shift of that POI which raises the quadratic approximation of the NLL by 1/2 after minimising over the other POIs, and the correlations are 1 on the diagonal, symmetric, strictly between -1 and 1 elsewhere, with cov = rho*sigma*sigma. For the Asimov dataset of the point the inverse covariance is the Fisher information of the expected yields. A negative variance gives nan silently. (NPs are held fixed.)",
  "all models, arrays, parameter points and datasets","a statement on derivatives and matrices of any size",
  ["src/fastprof/core.py: Model.covariance_matrix, Model.parabolic_errors, Model.correlation_matrix, Model.hessian"])
p("C63","Assignments written on the command line are applied as written",
  "In a text 'par1=val1,par2=val2,...' each parameter gets the value of the last assignment whose pattern matches it; an assignment that matches nothing or has no number is an error; blanks are ignored. In lists of hypotheses with ranges every combination of values is produced exactly once, first parameter slowest, and a range a:b:n (a:b:n+) is n equidistant values without (with) b. Range assignments change exactly the bounds written; new POIs have exactly the attributes written. (Counterexamples proved: scaled values of several NPs selected by one pattern are scaled repeatedly; logarithmic ranges and ranges without a number of points are never accepted; 'name=value:min' is read as 'name=:min:max'; an error leaves earlier range assignments applied.)",
  "all texts built from any names and values, all models, any number parser and pattern matcher","any number of assignments, parameters and ranges; recursion depth",
  ["src/fastprof_utils/tools.py: process_setvals, process_values_spec, process_setval_list, process_setval_dicts, process_setranges, process_pois"])

p("C64","Pseudo-datasets follow the likelihood",
  "The pseudo-datasets generated at one parameter point have, relative to those generated at any other point, the density given by the ratio of the likelihoods exp(-NLL), for models without Gaussian channels whose constrained NPs have unit variations. For all models each bin has the expected yield as mean, each Poisson bin the Poisson probabilities, and the aux. obs. of each constrained NP its value as mean; the mean over pseudo-datasets of the NLL at any other point is the NLL of the Asimov dataset up to a constant. Generation fails, with ValueError, exactly if a Poisson bin has a negative expected yield or an NP a negative constraint. (Defects proved: the aux. obs. are generated with the unscaled constraint, which is the width used in the NLL only for variations of modulus 1; the Gaussian bins are generated with the inverse of their covariance matrix as covariance, and for a bin whose inverse variance is not 1 the pseudo-datasets never follow the likelihood.)",
  "all models, arrays and parameter points, all numbers of bins and NPs, all measurable sets of datasets","a statement on probability distributions; samples can only reject it statistically",
  ["src/fastprof/core.py: Model.generate_data, Model.nll","src/fastprof/base.py: ModelNP.generate_aux"])

p("C65","Models imported from pyhf predict what pyhf predicts",
  "The pyhf importer turns a workspace with at most one normalisation factor per sample (the POI), lumi, normsys, histosys, shapesys and staterror modifiers into a file that loads, and the loaded model has, at every value of the POI and with all nuisance parameters at their central or +-1 sigma values, the expected rates given by the HistFactory formula, for every sample, bin and channel (histosys shifts that act together multiply instead of adding); it has the parameters of the workspace with their uncertainties as constraints, and its dataset has the observed counts channel by channel and all auxiliary observations at their central values. Conditions: variations of opposite directions, non-zero nominal rates where they are divided by, one nuisance parameter per modifier in a sample, luminosity with central value 1 and the same uncertainty in the first measurement, relative changes between 1/100 and 100. (Counterexamples proved for each of these conditions.)",
  "all workspaces with any number of channels, samples, bins and modifiers, all POI values and settings of the nuisance parameters","all sizes and combinations of modifiers, continuum of rates",
  ["src/fastprof_import/convert_pyhf_json.py: run, add_impact","src/fastprof/core.py: Model.load_dict, Model.n_exp"])

p("C66","A reparameterised model is the old model with its POIs expressed by the new ones",
  "Adding POIs and expressions, replacing normalisations, changing POI attributes and removing POIs (the steps of the reparameterisation script) gives a model whose predictions and likelihood, at every value of the new parameters, are those of the old model with its POIs at the values that the new expressions give them; a removed POI that is not replaced is fixed to the value given for it, or to its initial value. The samples that match a specification, and no others, get the new normalisation, and their yields are the value of that normalisation times the nominal yields; a sample that matches two specifications is an error. With a full list of POIs the new model has exactly the POIs of the list, in its order. Conditions: new names are distinct from those of the model; expressions are listed in order of dependence. (Counterexamples proved: replacing a POI that is used by an existing expression succeeds but leaves a model that cannot be evaluated; a new POI with the name of an existing expression is accepted and has no effect.)",
  "all models, sets of POIs, expressions, normalisations and values, all points of parameter space","any number and nesting of expressions, continuum of parameters",
  ["src/fastprof/model_tools.py: ModelReparam","src/fastprof_utils/reparam_model.py: run"])
p("C67","On its own Asimov dataset the generating hypothesis has statistic 0",
  "For any model, the profile likelihood ratio computed by the minimiser on an Asimov dataset generated at given POI values (and nominal NPs), for the hypothesis with those POI values, is exactly 0, whatever points the free fit looks at and wherever it stops, for any number of profiling iterations and with the yield floor. With Gaussian channels and linear impacts this also holds for Asimov datasets generated at any NP values.",
  "all models, POI values, bounds, hypotheses (full or partial), iteration numbers, floors and optimiser behaviours","depends on everything an external optimiser may do and on a continuum of models and parameter values",
  ["src/fastprof/minimizers.py: POIMinimizer.tmu, OptiMinimizer.minimize, NPMinimizer.profile","src/fastprof/core.py: Model.generate_asimov, nll"])
p("C68","With Gaussian channels and linear impacts the statistic is the exact profile likelihood ratio",
  "For models with Gaussian channels only and symmetric linear impacts, with an optimiser that finds the minimum of the objective it is given: the NLL of the hypothesis fit is the smallest NLL of the model over all NP values and all POI values allowed with the hypothesis fixed, that of the free fit the smallest over all NP values and all POI values within the bounds, and tmu returns twice the difference.",
  "all such models, datasets, bounds, hypotheses (full or partial), start points and optimisers meeting their contract","global minimum over a continuum of POI and NP values",
  ["src/fastprof/minimizers.py: POIMinimizer.tmu, OptiMinimizer.minimize, NPMinimizer.profile","src/fastprof/core.py: Model.nll"])

p("C69","The likelihood is the product over the channels",
  "Split the list of channels of a model in any way into consecutive parts: each part is a model that predicts in its bins what the whole model predicts there, for all POIs and NPs, and the NLL of the whole model on any dataset is the sum of the NLLs of the parts on their bins, with the constraint terms counted once; with and without offset and floor, wherever the yields are positive.",
  "all models whose samples have impacts at +-1, all splits, POIs, NPs, datasets, floors","any number of channels, bins, samples and NPs; continuum of parameters",
  ["src/fastprof/core.py: Model.set_internal_vars, Model.n_exp, Model.tot_bin_exp, Model.nll"])
p("C70","Merging models gives the model with all channels",
  "The merge script turns files of models with the same parameters and expressions and with different channels into a file that loads as the first model with the channels of all the models in order; this model predicts in the bins of each model what that model predicts, and its likelihood is the product of those of the models with the constraints counted once. Models with different numbers of NPs are not merged. (Defects proved: the parameters are not compared, those of the first model are used; a channel with the name of a channel of the first model silently replaces it; the merged object itself, before it is saved, counts the bins of a model once for each of its channels and cannot compute any yields (KeyError); models with symmetric impacts or log-normal terms are not merged; check() never accepts two models.)",
  "all lists of models, all numbers of channels, samples, bins and NPs, all parameter values and data","any number of models; continuum of parameters",
  ["src/fastprof/model_tools.py: ModelMerger","src/fastprof_utils/merge_models.py: run"])

p("C71","Over any history of runs a raster file holds the results of one of the runs",
  "compute_fast_limits and poi_scan keep the raster in the same file for the same output name. Whatever runs of the two scripts were made on a model, in any order, with any options, some failing and each in a process with its own hash seed, the file is missing or loads in every later process as exactly the raster that one of the runs computed from its own data and hypotheses (up to the pulls of the start point, C50). A run of compute_fast_limits without file computes the raster of its arguments, with the fits started at each hypothesis with all nuisance parameters at 0, and saves it; with --overwrite and a readable file the results are those of a run without file. (Defects proved: without --overwrite an existing file is used whatever the data, hypotheses and test statistic of the run; a run stopped while it writes the file makes every later run fail, also with --overwrite.)",
  "all histories of runs of any length, all models, data, hypotheses, options, hash functions, crash points of the write","unbounded histories of processes; results depend on external optimisers",
  ["src/fastprof_utils/compute_fast_limits.py: run","src/fastprof_utils/poi_scan.py: run","src/fastprof/base.py: Serializable.load, Serializable.save","src/fastprof/fit_data.py: Raster.load_dict, Raster.fill_dict"])
p("C72","poi_scan uses a stored raster only for the hypotheses it was asked for",
  "With --force-computation the file is not read; without file the raster of the arguments is computed and saved. With a file: if the stored raster has as many hypotheses as were given and contains all of them, it is used, whatever the data; otherwise it is computed again with --overwrite and the run is refused without. If the given hypotheses are all different, a raster that is used has exactly these hypotheses. (Defects proved: a list with a repeated hypothesis is refused the second time it is run, and is accepted for a raster with another hypothesis; a scan of a single hypothesis always fails.)",
  "all stored rasters, lists of hypotheses, options, data and hash functions","any contents of the file and any lists of hypotheses",
  ["src/fastprof_utils/poi_scan.py: run","src/fastprof/fit_data.py: Raster"])

p("C73","Limits of a Gaussian measurement are the exact ones, from the model file to the limit",
  "For a model with one POI whose bins are Gaussian, with yields affine in the POI and the NPs and constrained NPs, the NLL minimised over the NPs is a parabola whose width does not depend on the data, and whose minimum is at the generated value for Asimov data. With an optimiser that finds the minimum in the range of the POI, a scan of positive values with any calculator succeeds; the stored profile likelihood ratios of data and Asimov dataset are ((mu-best)/sigma)^2 and (mu/sigma)^2; the stored p-value is the exact probability (one-sided or two-sided) for a Gaussian measurement, CLb the same with POI 0 and CLs their ratio; the exact CLs has exactly one limit at each level, and the 95% CLs limit reported by the scan lies in the same interval between scanned values.",
  "all such models (any number of bins and NPs), datasets, POI ranges, start values, lists of distinct positive hypotheses, optimisers that find the minimum, interpolations that satisfy their documentation","chains model evaluation, NP profiling, both fits, the Asimov dataset, the asymptotic formulae and the interpolation, for all models and data; any comparison uses a few of them",
  ["src/fastprof/calculators.py: compute_fast_results, compute_fast_q, compute_fast_plr","src/fastprof/minimizers.py: OptiMinimizer.tmu, NPMinimizer.profile","src/fastprof/core.py: Model.nll, Model.generate_expected","src/fastprof/test_statistics.py: QMu, QMuTilda, TMu","src/fastprof/scans.py: UpperLimitScan.limit"])

p("C74","The pruning script keeps the likelihood of the remaining parameters and writes files that load as the pruned model",
  "Whatever the options of prune_model, if it ends, its output file loads as the pruned model, with the POIs, expressions, channels and bins of the input, and the nuisance parameters that were not removed, unchanged; without options it is the input model. The dataset in the output file is that of the input for the remaining parameters (whole-number counts exactly, others truncated). With --nps name=value, every likelihood difference computed from the output file equals that computed from the input files with the removed parameters at the given values (the last value given for each), with constraint terms, with and without offset. With --min-np-impact the parameters that remain are exactly those that change the yield of some sample in some bin by the threshold or more. (Defects proved: without a dataset the script always fails after pruning; a pattern that also matches a POI makes it fail; with a pattern that matches two parameters the second is held at the pull of the first.)",
  "all model files that are saved faithfully (C32), data files, option texts, dictionaries of regular-expression matches, POI and NP values","composition of parsing, removal, refitting, saving and loading, for all models, data and option texts",
  ["src/fastprof_utils/prune_model.py: run","src/fastprof_utils/tools.py: process_setvals","src/fastprof/model_tools.py: NPPruner.remove_nps, NPPruner.prune, SamplePruner.prune","src/fastprof/core.py: Data.save_with_model, Model.fill_dict, Model.load_dict"])

p("C75","P-values from generated samples have the stated chance to be small",
  "If the observed dataset is drawn like the pseudo-datasets, from the model at any parameter point, then for every statistic, number n of pseudo-datasets and level a, the chance that the p-value computed from the generated samples (failed computations being repeated) is at most a, is at most (2an+1)/(n+1) times the chance that the observation can be computed; dividing by the background p-value (CLs), whatever the background samples, does not make small values more likely. For a statistic without ties it is exactly (floor(an)+1)/(n+1). Generation returns with certainty if the statistic never raises and has a chance to succeed. (Defect proved: the reported p-value is not conservative: for each k < n, values up to k/n have the chance (k+1)/(n+1), and a p-value of exactly 0 has the chance 1/(n+1).)",
  "all models, parameter points, measurable statistics (which may fail or raise), numbers of pseudo-datasets, levels, probability spaces and background samples","a statement about probabilities over infinitely many possible datasets and runs; tests see single outcomes",
  ["src/fastprof/samplers.py: Sampler.generate","src/fastprof/sampling.py: SamplingDistribution.pv, CLsSamples.pv","src/fastprof/core.py: Model.generate_data","src/fastprof_utils/compute_limits.py: run"])

p("C76","Samples of the toy sampler are p-values of their own dataset",
  "A sample computed by OptiSampler for a pseudo-dataset is the asymptotic one-sided p-value (bounded one if both Asimov values are given) of the profile likelihood ratio of that dataset, lies strictly between 0 and 1, and equals the p-value the calculator gives for the same fits; without bounds the computation never fails; for optimisers that converge it does not depend on the pseudo-datasets treated before, so that generate returns the values of one fixed statistic and the coverage of C75 applies to the whole chain model, toys, fits, p-value. (Defects proved: bounds on nuisance parameters select the opposite sign of the fitted value; after a fit that does not converge the best fit of an earlier toy is used; the tested value is compared with the fit of the first free POI of the model, whichever POI is tested; after set_poi_values_and_ranges, as called by compute_limits, every computation raises AttributeError.)",
  "all models, datasets, optimisers, hypotheses, settings of the sampler, histories of previous toys, numbers of toys and levels","the value must hold for every dataset and after every history of toys; tests see a few toys of one model",
  ["src/fastprof/samplers.py: OptiSampler.compute, Sampler.generate","src/fastprof/minimizers.py: OptiMinimizer.tmu, POIMinimizer.profile_nps","src/fastprof/fit_data.py: FitResult.set_poi_values_and_ranges","src/fastprof_utils/compute_limits.py: run"])

p("C77","Yields of a channel and expected datasets are those of the given parameters",
  "channel_n_exp returns, for the bins of the named channel, one row per sample with its normalised nominal yields times the NP corrections (zero rows beyond the samples of the channel), or the row of a named sample; the pieces of the channels put together are the whole array, and the piece of the total yields is the sum of the rows; unknown names raise. generate_expected for POIs given as a number, a list or a dictionary yields a dataset with the expected counts at these POIs with NPs nominal, or profiled on the given dataset, which are then also its aux. obs.; this is the dataset used by the calculators for expected results; for Gaussian linear models it is reproduced by generating again from it. (Defect proved: contrary to the documentation the NP values of a Parameters argument are not ignored.)",
  "all models with distinct channel names, all channels, samples, parameter values, datasets and forms of the argument","any number of channels, samples and bins; tests look at one file",
  ["src/fastprof/core.py: Model.channel_n_exp, Model.expected_pars, Model.generate_expected, Model.generate_asimov","src/fastprof/calculators.py: TestStatisticCalculator.compute_fast_q"])

p("C78","The channel-merging script keeps predictions, data and likelihood",
  "merge_channels reads the option --channels as written (merges separated by ~, channels by commas, optional ranges channel:low:high for all channels of a merge or for none; blanks and line breaks ignored; anything else is a ValueError). If the merges concern different channels and each can be done (C33), the script ends; its files, once the description entry is taken out of the model file, load as a model with the same parameters in which each merged channel has the bins of the channels it replaces (or the given ranges, observable and unit), the other channels being unchanged; predictions for all parameter values and data are those of the input, and so is the likelihood, with or without offset, floor and constraint terms. If the first merge names an unknown channel or one with ranges nothing is written. (Defect proved: the model file written by the script can never be loaded again, TypeError, whatever the input and options.)",
  "all model and data files meeting the conditions, all option texts, any number of merges, all POI and NP values","composition of parsing, any number of merges, saving and loading; continuum of parameters",
  ["src/fastprof_utils/merge_channels.py: run","src/fastprof/model_tools.py: ChannelMerger.merge, ChannelMerger.merge_data","src/fastprof/core.py: Model.fill_dict, Model.load_dict"])

p("C79","The fit script reports the best fit, and what its uncertainties mean",
  "fit_model fits the data file if one is given, else the --asimov dataset (the Asimov dataset of the model at the POI values of the last assignments and nominal NPs), else the data of the model file; the model has the cutoff given by --cutoff and the POI ranges of the file with the ends given by the last --setrange assignment of each POI. If scipy finds the minimum, the report gives POI values within the ranges, the NPs profiled there, the NLL of this point, and no other POI values in the ranges with profiled NPs have a smaller NLL; for Gaussian models with linear impacts no values of the NPs either. Fitting the model's own Asimov dataset gives back a point predicting the data, with nominal constrained NPs. Uncertainties and correlations are those of the quadratic approximation in the POIs with fixed NPs. A failed fit writes no report; the hypothesis tested does not change the report. (Defects proved: --regularize always fails; uncertainties ignore the covariance of Gaussian channels and the NP constraints; the best-fit value printed with a tested hypothesis is that of the Asimov fit, 0 for Gaussian models; NP values in --asimov have no effect; POIs called min_nll, min_pars or correlation_matrix clash with other entries.)",
  "all models, data, options, optimisers meeting the stated contract, hypotheses","optimality over a continuum, all optimiser behaviours and option texts",
  ["src/fastprof_utils/fit_model.py: run","src/fastprof/minimizers.py: POIMinimizer.minimize, POIMinimizer.tmu","src/fastprof/core.py: Model.covariance_matrix, Model.parabolic_errors, Model.generate_expected","src/fastprof_utils/tools.py: process_setvals, process_setranges"])

p("C80","Toy-based limits are crossings of the toys' CLs curve, also from concurrent jobs",
  "The CLs (CLs+b) limit that compute_limits writes is the first POI value where the curve through the CLs values (mid-p-values) of the toys kept by --truncate-dist takes the value 0.05; the asymptotic limits do not depend on toys. If any number of jobs share the scan, with kills, restarts and broken locks, all with the same number N of toys, each limit written rests, at every point, on N toys generated for this very hypothesis, and no limit is written when those of a point are missing. Toys are generated at the fit of the file with fixed POIs and tested for the hypothesis of the point; the results file is only touched by a run that succeeds; a run on complete files generates nothing and uses the first toys of the files, and one file with too few toys stops it; file names are distinct. The limits for --bands are those of the quantiles of the CLs values of the background toys. Defects: no run ever generates a toy, --sethypo and one-point scans always fail, --cl has no effect on limits, q_mu toys are q~mu p-values, and background means the first POI of the model at 0 whichever is scanned.",
  "all rasters, files, options, libraries for splines, toys, executions of any number of jobs and sequences of runs","concurrency, crashes and arbitrary toys and scans; a test sees one schedule of one scan",
  ["src/fastprof_utils/compute_limits.py: run","src/fastprof/sampling.py: Samples.generate_and_save, CLsSamples.pv, CLsSamples.cut","src/fastprof/scans.py: UpperLimitScan.limit","src/fastprof/fit_data.py: Raster.load_with_asimov, FitResult.set_poi_values_and_ranges"])

p("C81","Sampling results are picked up unchanged by a later session",
  "When the results files of all its hypotheses are complete, load() of a Samples (CLsSamples) object succeeds, whatever jobs, interleavings, kills and broken locks produced the files, provided that all jobs asked for the same number N of toys and that file names differ; the object then holds, for each hypothesis, N toys generated for this very hypothesis, in increasing order, and its p-values (CLs values) are those of these toys. A job working alone holds what a later load() finds. Missing or truncated files always raise and leave no usable distribution. load() takes all the toys of a file. generate(), documented as the in-memory alternative, always raises.",
  "all directories, executions of any number of jobs, hypotheses, numbers of toys and samplers","the files come from arbitrary concurrent and interrupted histories",["src/fastprof/sampling.py: Samples.__init__, Samples.load, Samples.generate, CLsSamples.load, CLsSamples.generate, SamplingDistribution.load"])
p("C82","Resampled scans go through the scan points; two-dimensional best fits are not above them",
  "resample(n, order) of a scan with increasing POI values and more points than the order returns n equally spaced POI values from the first to the last point and the values there of one continuous curve through all points, independent of n; refining an equally spaced scan by a whole number keeps its points; other scans are refused. best_fit() of a two-dimensional scan returns a point where the fitted surface is not above its value at the first of the smallest scan points, and this point itself when the minimiser fails.",
  "all scans, orders, numbers of points, spline and minimiser libraries with the documented behaviour","arbitrary scans and numbers of points",
  ["src/fastprof/scans.py: Scan1D.spline, Scan1D.resample, PLRScan2D.points, PLRScan2D.spline, PLRScan2D.best_fit, Scan.minimum"])

p("C83","Clones are independent of the original",
  "clone() of a set-up model without Gaussian channels succeeds, leaves the model as it was, and returns a model that says the same (parameters, expressions, channels, samples, options, predictions) except for a new name if one is given, and the cutoff. The clone and the original share no channel, sample, array or impact dictionary: any sequence of changes made through one (setting up, removing NPs, writing to yields) leaves the other as it was. remove_nps(clone_model=True) leaves the model unchanged and returns what pruning in place would have produced under the name with suffix. POIs, NPs and aux. observables are shared: changes to them are seen by both. The cutoff is reset to 0 in a clone; models with samples in a Gaussian channel cannot be cloned; the impacts of the plotting tools never return for a model with NPs.",
  "all heaps of Python objects, models in them, names, patterns, and sequences of changes","aliasing shows only in specific later histories of writes",
  ["src/fastprof/core.py: Model.clone, Model.__init__, Model.set_internal_vars","src/fastprof/sample.py: Sample.clone","src/fastprof/channels.py: Channel.clone, GaussianChannel.clone","src/fastprof/model_tools.py: NPPruner.remove_nps","src/fastprof/plot_tools.py: PlotImpacts.impacts","src/fastprof/minimizers.py: OptiMinimizer.clone"])

p("C84","merge_models.py merges the files it finds, in the order it announces",
  "merge_models.py merges the models of the files named on the command line or matching a pattern, in this order, into a file that describes the first model with the channels of all of them (after removal of insignificant samples with --min-sample-signif). --numeric-sort keeps the same files, orders names by the numbers between separators, and otherwise raises TypeError exactly when two names agree up to a number against a text. Names of missing files are dropped silently, patterns beginning with a star are not expanded, and numbers after a letter or underscore are not seen by the sorting.",
  "all file systems, lists of names and patterns, options and mergeable models","arbitrary lists of files and names",
  ["src/fastprof_utils/merge_models.py: run","src/fastprof/model_tools.py: ModelMerger, SamplePruner"])

p("C85","iterate.py and collect_results.py use the same positions and keep results aligned with them",
  "Both scripts read a position list in the same way: vmin:vmax:n gives n evenly spaced values including both ends, :int their integer parts, :log n+1 values in constant ratio, :logint the n rounded midpoints, anything else the comma-separated texts. iterate.py writes one command per position with the position in place of * and %. collect_results.py writes, for each key, exactly the positions whose file has a result (and the bands and errors asked for), in order, and the result of the file of each; if all jobs wrote their numbers, everything is collected. Values that are not numbers stop it. The lists of bands are aligned with these positions if every file with bands also has a result; otherwise they are longer.",
  "all position lists, patterns, keys, numbers of bands, file systems and contents of the result files","arbitrary sets of missing or incomplete files",
  ["src/fastprof_utils/iterate.py: run","src/fastprof_utils/collect_results.py: run"])

p("C86","Converted workspaces: yields and impacts",
  "convert_ws.py: whatever the expected yields of the workspace are as functions of its variables, the conversion records for each bin, sample, nuisance parameter and variation exactly the yield attributed to the sample at the initial values (what is gained when its normalisation alone is switched on; plus, for the default sample, what is there without any), and the relative change of this yield when this parameter alone is moved; all the variables of the workspace are left as they were. With the default epsilon it never fails. If the yield is a sum over samples with normalisations of their own, nothing is lost or counted twice, and the model that is written gives back the yield of the workspace at all values of the normalisations and for each variation of each nuisance parameter; samples which share a normalisation are counted several times.",
  "all workspaces (arbitrary yield functions), channels, samples, default samples, numbers of bins, nuisance parameters, variations, initial values","arbitrary functions of arbitrarily many variables; state carried through all evaluations",
  ["src/fastprof_import/convert_ws.py: fill_yields, fill_channel_yields, save_nominal, save_normpars, set_normpars"])
p("C87","Packing of converted impacts",
  "convert_ws.py --packing-tolerance: the impacts of a parameter are replaced by one value per variation exactly when all bins are within the tolerance of the mean, and left out exactly when the means are within the tolerance of 0; what the model then finds in any bin is within twice the tolerance (plus rounding) of what was computed, and within the tolerance if the parameter is not left out. A zero tolerance without rounding changes nothing.",
  "all tolerances, roundings, numbers of bins, variations and impacts","arbitrary real-valued tables",
  ["src/fastprof_import/convert_ws.py: pack"])
p("C88","Options and output of the workspace conversion",
  "convert_ws.py: --binning items are the lower edges of n equal (or, with log, equal-ratio) bins, n+ includes the upper edge, several items are put together; --channels selects the channels listed by position or name; --samples gives each channel the listed samples with the named parameters as normalisations, and parameters that do not exist are refused; --variations gives each variation with both signs; exactly the samples that are not empty are written, with their normalisation parameter if the model has it; the validation data are those of the samples that are written, if at most one sample is empty.",
  "all option texts, workspaces, sample lists and yields","arbitrary option texts and lists",
  ["src/fastprof_import/convert_ws.py: run, fill_channel, set_sample_normpar"])

p("C89","Over repeated measurements the uncertainties and limits of a Gaussian model mean what they say",
  "For a model with one POI, Gaussian bins and linear yields, and datasets distributed as its likelihood says: the best-fit POI is normal around the true value with the reported variance; the one-sided and the two-sided p-values stored for the true value are at most alpha with probability exactly alpha; the CLs stored for it is at most alpha with probability at most alpha; the 95% CLs limit reported by a scan is below the true value with probability at most 5%; pseudo-datasets generated by the code are such datasets when the bins are independent with unit variance and the variations of the NPs are one.",
  "all Gaussian models, true values of POI and NPs, scanned values, probability spaces and levels alpha","a statement about the probability distribution of results over all datasets",
  ["src/fastprof/calculators.py: TMuCalculator, QMuCalculator","src/fastprof/test_statistics.py: TMu, QMu","src/fastprof/scans.py: UpperLimitScan","src/fastprof/core.py: Model.nll, Model.generate_data"])

p("C90","Plots of sampling distributions compare the samples with what the asymptotic formulas expect",
  "dump_samples.py histograms the stored p-values, or the q_mu / q~mu values that have these asymptotic p-values for the hypothesis <file>:<index>, in equal bins over the given range; every value on the axis is counted once; with --reference the curve in a bin is the number of samples times the probability of the bin (the difference of the p-values of its edges), so that for uniform p-values it is the expected content of the bin; wrong ranges, hypotheses and bin numbers are refused with ValueError.",
  "all stored samples, rasters, option texts, ranges and numbers of bins; for the expectation all probability spaces","integrals of the density over arbitrary intervals and expectations over all samples",
  ["src/fastprof_utils/dump_samples.py: run","src/fastprof/test_statistics.py: QMu.asymptotic_ts, QMu.asymptotic_pdf, QMuTilda.asymptotic_ts, QMuTilda.asymptotic_pdf","src/fastprof/calculators.py: QMuCalculator.make_q, QMuTildaCalculator.make_q"])

p("C91","Linearity plots show the stored and the interpolated impacts of the requested bin, sample and NP",
  "Each panel of plot_valid.py belongs to the requested (or first) channel and sample, a requested bin and one NP: the black points are the variations of the validation file minus 1, the red points are exactly the stored impacts, and the curves are the relative change of the expected yield when that NP alone is moved, on 100 equidistant values between the first and the last validation point. The curve of the form in which the model was loaded goes through the stored points; the other one is log(1+impact) or exp(impact)-1 of it and not the other interpolation (F124); with --symmetric the curves are a*x and (1+a)^x-1. Unknown channels and samples and bad bin lists are refused.",
  "all models, validation files, options, bins, NPs and parameter values","equality of curves at all parameter values for arbitrary numbers of variations and NPs",
  ["src/fastprof_utils/plot_valid.py: ValidationData, run","src/fastprof/core.py: Model.channel_n_exp, Model.k_exp","src/fastprof/sample.py: Sample.impact_coefficients"])

p("C92","Limit plots, expected bands, pull plots and printed tables show the values that belong to the hypotheses",
  "The curve of a limit plot has one point per hypothesis: its POI value and the stored value (the error band drawn around it has no area, F125). In a plot of expected bands the colour seen at a height is that of the narrowest band containing it and the line is the median, up to four bands (F126). A printed table has one row per hypothesis in which each cell is the value belonging to the key at the head of its column, of this raster or of the other; columns are chosen from the first hypothesis, so that a p-value missing elsewhere raises; verbosity 0 prints as 1 (F127). In the plot of impacts each NP has its own height with both of its bars, its label and its pull.",
  "all rasters, keys, toy distributions, numbers of bands, hypotheses and NPs","alignment of rows, columns, bars and colours for lists of any length and all values",
  ["src/fastprof/scans.py: UpperLimitScan.plot, Scan1D.points","src/fastprof/sampling.py: SamplesBase.plot_bands","src/fastprof/fit_data.py: Raster.print, Raster.key_value","src/fastprof/plot_tools.py: PlotImpacts.plot_impacts, PlotImpacts.plot_pulls"])

p("C93","What is saved to a file can be read back, and other files are not touched",
  "save() followed by load() in the same flavour gives the data that the saved object stands for: numbers of all kinds are numbers, sequences are lists; the conversion of numpy objects does not change the data. JSON fails exactly for arrays and numpy scalars other than np.float64 that are not converted, YAML files cannot be read exactly if a tuple or numpy object is left in them: so for datasets with auxiliary observables and rasters with p-values (F128) and models with Gaussian channels (F129). The flavour is that of the file name, JSON by default. A save that raises or is interrupted loses what was in the file before, also if only the flavour is unknown (F130), and no other file.",
  "all objects of any depth, file names, flavours, contents of the disk, and interruptions","needs all nested objects and all crash points",
  ["src/fastprof/base.py: Serializable.save, Serializable.load, Serializable.unnumpy, Serializable.guess_flavor, Serializable.dump_markup","src/fastprof/core.py: Data.fill_dict, Model.fill_dict","src/fastprof/fit_data.py: PLRData.fill_dict","src/fastprof/channels.py: GaussianChannel.fill_dict"])

p("C94","Adding channels to a measurement never reduces its expected sensitivity",
  "Take a model and its Asimov dataset for any POIs and NPs, and the model with only some of the channels and its own Asimov dataset for the same parameters. Moving the parameters to any other point raises the NLL of the smaller model by at most as much as that of the larger one. So the exact profile likelihood ratio of any hypothesis on the POIs is between 0 and that of the larger model, and its asymptotic p-value is never smaller: what the smaller model is expected to exclude, the larger one is.",
  "all models (Poisson and Gaussian channels, any NPs), sublists of channels, generated parameters, tested conditions on the POIs and allowed ranges containing the generated ones","holds for all parameter points and all sets of channels",
  ["src/fastprof/core.py: Model.nll, Model.generate_asimov, Model.tot_bin_exp, Model.set_internal_data","src/fastprof/test_statistics.py: TMu.asymptotic_pv"])

p("C95","More data never reduce the expected sensitivity",
  "Multiplying all nominal yields of a model by k multiplies its predictions and Asimov datasets by k, for all parameters: the impacts are relative. If k is at least 1, the NLL on the Asimov dataset then rises at least as much as before at every parameter point, the exact profile likelihood ratio of any hypothesis on the POIs is not smaller, and its asymptotic p-value not larger.",
  "all models (Poisson and Gaussian channels, any NPs), factors k, generated parameters, tested conditions on the POIs and allowed ranges containing the generated ones","holds for all parameter points and factors",
  ["src/fastprof/core.py: Model.nll, Model.generate_asimov, Model.tot_bin_exp, Model.set_internal_data","src/fastprof/sample.py: Sample.yields, Sample.impact","src/fastprof/test_statistics.py: TMu.asymptotic_pv"])

open('/verif/properties.jsonl','w').write(''.join(json.dumps(x)+'\n' for x in P))
print(len(P))
