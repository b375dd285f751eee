PLAN={
'C01':'`ModelNP` record, scaled/unscaled values; field arithmetic',
'C02':'decoded markup + `load_field` + per-class load/fill; case analysis, counterexample for None',
'C03':'`Parameters` as names + two value arrays, `set`/`get`; induction over the assignment history, refinement to a map',
'C04':'`dict`/`set_from_dict` as folds; induction over names',
'C05':'inductive type of expressions, `real_vals` as a left fold, gradient vectors; derivatives (`HasDerivAt`) along coordinates, induction on the list',
'C06':'as C05 for the matrices of second derivatives',
'C07':'`Expression.replace` on a store of mutable expressions, `remove_pois`; invariant over the replacement loop and fuel induction',
'C08':'Vandermonde system `p^(n+1)`; invertibility, matrix algebra, then through `k_exp`',
'C09':'`k_exp`, `n_exp`; algebra',
'C10':'`k_exp`, `cut_k_exp`; exp positivity, tanh bounds and derivative',
'C11':'channel offsets as running sums; list induction',
'C12':'`Data.set_counts`, `set_aux_obs`; case analysis on lengths, list induction',
'C13':'dataset markup of all channel classes; composition of save and load',
'C14':'`nll`, `gradient`; calculus on finite sums, uses C05',
'C15':'`hessian`; calculus, uses C06',
'C16':'NLL with and without offset; algebra',
'C17':'Asimov data; `log x <= x-1`',
'C18':'P and Q matrices of the NP profiling; quadratic forms',
'C19':'as C18 for Gaussian channels; equality of approximation and NLL',
'C20':'`tmu`; case analysis over fit outcomes',
'C21':'bounds and initial values of the fit; case analysis',
'C22':'`ParBound.__and__`; order reasoning over optional ends',
'C23':'asymptotic p-values with the normal distribution; monotonicity',
'C24':'as C23; algebra at the threshold',
'C25':'inverse functions; strict monotonicity and surjectivity',
'C26':'CLs of the statistics; order reasoning',
'C27':'`np.searchsorted` on sorted lists; counting lemmas, permutation invariance',
'C28':'quantile index; sorted lists',
'C29':'N processes with locks and crashes as a transition system; invariants by induction on executions, counterexample traces',
'C30':'as C29; invariants and solo-run progress',
'C31':'generation loop over a stream of outcomes; induction on fuel, non-termination for the all-fail stream',
'C32':'`Model.load_dict`/`fill_dict` and those of all parts; composition of round trips by structural induction',
'C33':'`ChannelMerger` on a store of shared impacts; list algebra through the likelihood',
'C34':'`NPPruner.remove_nps`; algebra of the exponential impacts, list induction',
'C35':'`POIHypo` equality and hash, dict keyed by it; arbitrary hash function, histories by induction',
'C36':'`FitResult` built from parameters and back; uses C01, C04',
'C37':'`Raster.set_global_best_fit`; exact extent and counterexample',
'C38':'scan minimum/maximum; list argmin',
'C39':'dataset loading by name; permutation invariance',
'C40':'`real_vals` fold; list induction',
'C41':'implicit norm impacts (`Sample.set_...`) through `k_exp`; algebra',
'C42':'POI minimiser with an arbitrary optimiser run; invariants over the evaluations',
'C43':'as C42; relation of the stored point and NLL. What holds is proved, the unrestricted statement is refuted',
'C44':'minimiser state after a fit; equality of two runs',
'C45':'CLs of q_mu, q~_mu; monotone likelihood ratio of the normal tail',
'C46':'asymptotic densities; derivative of the normal distribution function, one-sided at the threshold',
'C47':'sampled CLs; case analysis',
'C48':'bands from quantiles; uses C28',
'C49':'`cut`; filtered lists',
'C50':'raster markup; induction over the entries with arbitrary hashes',
'C51':'`set_asimov`; zip of the entry lists',
'C52':'`is_filled`; case analysis',
'C53':'floor in `tot_bin_exp`; max algebra',
'C54':'scan limits with an arbitrary spline satisfying a contract; intermediate values, first root',
'C55':'likelihood intervals; as C54, and inverse functions of the chi2/normal distributions',
'C56':'asymptotic formulas against Gaussian measure of sets; measure computations',
'C57':'`OptiMinimizer` with state, arbitrary deterministic optimiser; induction over the history of calls',
'C58':'calculators over lists of hypotheses; induction over the list',
'C59':'free-fit options of `TMuCalculator`; as C58',
'C60':'`SamplePruner`; bound on the significance function by calculus',
'C61':'`NPPruner.prune`; reduction to C34',
'C62':'covariance, errors, correlations; inverse of positive definite matrices, profile of the quadratic form',
'C63':'texts as character lists, `split`; list induction, Cartesian products',
'C64':'distribution of `generate_data` as a product of Poisson and Gaussian measures; densities of product measures, moments',
'C65':'the conversion as a function from decoded workspaces to markup, composed with the model of loading (C32) and of `n_exp`; invariants of the loops over modifiers, samples, channels; product formula bin by bin',
'C66':'the steps of the script as one function between models; an environment that satisfies all definitions is shown to be preserved by each step (invariant of the loop over removed POIs), hence the predictions; existence of the environment by induction over the ordered expressions',
'C67':'composition of C17 (with a floor), a vanishing first-order term in the NP profiling (so that the hypothesis stays where it is) and the inversion of the fits: every number the free fit can store is an NLL of the model, hence not below that of the generating point',
'C68':'composition of C19 with a theorem on the fits (an optimal optimiser finds the minimum over all points allowed by the bounds, because every allowed point is the image of a point of the box handed to the optimiser)',
'C69':'channels as consecutive blocks of bins; the arrays of a part are a window of the arrays of the whole (C08 formulas bin by bin), then the NLL as a sum over blocks',
'C70':'`ModelMerger` on objects with their internal arrays, composed with loading and saving (C32); loop invariants for the channel dictionary, C69 for the meaning of the result',
'C71':'a script run as a function of the file and of its arguments (composed with the calculators, C58/C59, and with the raster file format, C50); induction over the history of runs, each step either leaves the file or writes a raster that satisfies the conditions of C50',
'C73':'completing the square for a quadratic form in (POI, NPs) minimised over the NPs (general lemma on quadratic functions on a vector space); composition with C19 (profiling exact for Gaussian bins), C68 (both fits), C58 (calculators), C56 (exact probabilities), C54 (limits of interpolated curves); forward simulation of the scan for the success part',
'C72':'the checks of poi_scan on a loaded raster; a counting argument (an injective map between finite lists of the same length is onto)',
'C74':'refinement: the tools on documents give the tools on models of C34/C61 (removeNps_mdl); an invariant (the document loads back as the object) kept by all steps; likelihood ratio of C34 by splitting the constraint terms; the text of the options by C63; the dataset by C13',
'C75':'exchangeability: the event that given attempts succeed is invariant under exchanging the observation with a successful attempt, so all of them have the same chance of a small rank; at most c+1 of them can have a doubled mid-rank up to c (pointwise counting); sum over the countably many patterns of successes; Borel-Cantelli for the termination',
'C76':'the state of the minimiser is kept from toy to toy in the model; compute is inverted into the two fits of tmu (C20, C57) and the p-value formulas (C21); two states that differ in fit results only give the same outcome if every fit sets min_pois; induction over the toys, then C75; concrete models for the defects',
'C79':'the script on decoded files (Model/FitScript.lean) with scipy as a parameter; inversion of the fit to the contract of C42/C67, the Asimov case from Gibbs inequality (C17), uncertainties from C62, option texts from C63, the printed value by following the minimiser state through C68/C73',
'C78':'ChannelMerger on the Python objects (Model/MergeScript.lean), refining the merge of C33 (newDocs_map, merge_step), induction over the merges (SamePredictions, SameData and SameDocs compose), parsing by splitOn/intercalate, files by C32 and C13; the defect by inversion of the script',
'C77':'channel offsets and array slices as lists, induction over the channels; expected parameters through C03 constructors and C18 profiling; consistency from the exact Gaussian minimum (C19) and C17',
'C80':'the script as preparation, generation on a directory, and results (Model/LimitScript.lean), built on the models of rasters (C35), calculators (C57), samples (C27), scans (C54), the sampler (C76) and the lock protocol (C56); the jobs by an invariant of the protocol: every stored or held sample is a sorted list of N toys generated for the hypothesis of its file; the defects by inversion of the script and c76_ranges_break',
'C81':'Samples.load on a directory (Model/SampleStore.lean), composed with the invariant of the lock protocol (jobs_inv); the lone job by an invariant relating what it holds to the files (Lemmas/LockReload.lean); lookups by C35',
'C82':'Model/Resample.lean on the scan model of C54; np.linspace as a list, interpolation contract of the spline library; smallest point by C38',
'C83':'Python objects as cells of a heap with addresses (Model/Clone.lean); Spec/Clone.lean says which cells belong to a model and what a change through a model is; clones by induction over channels and samples (all new cells), independence by induction over the changes, pruning by a read-after-write lemma and C40',
'C84':'Model/MergeCmd.lean on the merge model of C70 and the pruning model of C69; the sort key as a list of pieces with a total order, sortedness from the merge sort of the library',
'C85':'Model/Collect.lean: the position parser, the commands, and the loop over keys and positions with its state; an invariant of the loop says which positions have been collected (Props/Collect.lean)',
'C86':'Model/ConvertWs.lean: the workspace is an assignment of values with arbitrary yield functions; the loops thread the assignment; invariant: outside the normalisations the values are the initial ones, so that every evaluation happens at the intended point; Spec/ConvertWs.lean says what the yields should be; composed with C08 for the model that is written',
'C87':'pack on a table of impacts; the three cases by the mean; error bounds by the triangle inequality through Sample.impact',
'C88':'Model/ConvertOpts.lean; option texts by splitOn/intercalate, lists by induction',
'C89':'Spec/GaussCoverage.lean says what it means for random datasets to follow the likelihood (multivariate normal bins, normal auxiliary observables, independence); the best-fit POI is an affine functional of the data (Lemmas/GaussLaw.lean), its law follows from that of linear functionals of normal vectors; p-values are monotone in the best fit (C73), so their law follows',
'C90':'Model/DumpSamples.lean; the density is minus the derivative of the p-value away from 0 (C46), hence its integral over a bin is the difference of the p-values (fundamental theorem on both sides of 0); for uniform p-values the converted value is in a bin iff the p-value is between those of the edges',
'C91':'Model/PlotValid.lean; the yield factors into a part that depends on the POIs only and the correction factor (C77, C09), so the ratio to the nominal yield is the factor; C08 gives its value at the stored variations',
'C92':'Model/Display.lean; what is seen is defined by the last area drawn over a point, and monotonicity of the quantiles (C21) orders the bands; tables by Forall₂ over rows and columns',
'C93':'Model/Files.lean: Python objects as a nested inductive type, json and yaml as partial functions to trees, files as a function of names; induction on objects, with exact characterisation of failure by parts of the object',
'C94':'Lemmas/AddChannels.lean: likelihood as sum over channels (C69), increments of each channel at its Asimov data are non-negative (Gibbs, quadratic form), induction on the sublist with an embedding of bins',
'C95':'Spec/MoreData.lean: the model with multiplied yields; Lemmas/MoreData.lean: predictions by channel, increments of Poisson channels are multiplied by k and of Gaussian ones by k squared',
}
