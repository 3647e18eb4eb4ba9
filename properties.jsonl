{"id": "C01", "title": "k_fold is an aligned partition", "statement": "ExpData.k_fold(k) returns exactly k datasets; every unit of the original appears in exactly one of them, exactly once, with its covariate row, exposure and response still belonging to the same unit, and units inside a fold keep their original relative order. Optional exposure/response stay None when absent.", "quantifier": "every dataset (any number of units, 1-D or 2-D covariates, exposure/response present or absent), every k >= 1, every outcome of the random permutation", "why_tests_cant": "the permutation is random and the dataset arbitrary; tests fix one seed, four units and k<=2", "anchors": ["causal_effect_bandits/data.py:ExpData.k_fold"]}
{"id": "C02", "title": "k_fold is balanced", "statement": "Fold i of k_fold(k) on n units holds exactly floor(n/k) units plus one more iff i < n mod k; so fold sizes differ by at most one, sum to n, and k_fold(1) returns the original data unchanged.", "quantifier": "every n, every k >= 1, every fold index and every permutation", "why_tests_cant": "fold sizes must be right for every n, k and shuffle", "anchors": ["causal_effect_bandits/data.py:ExpData.k_fold"]}
{"id": "C03", "title": "k_fold argument validation", "statement": "k_fold(k) raises ValueError exactly when k < 1; on a well-formed dataset with k >= 1 it never raises and never modifies the dataset it is called on.", "quantifier": "every integer k and every well-formed dataset", "why_tests_cant": "ranges over all integers and datasets", "anchors": ["causal_effect_bandits/data.py:ExpData.k_fold"]}
{"id": "C04", "title": "append is concatenation", "statement": "After a successful d.append(e), d holds its old units followed by e's units, in order and aligned, len(d) is the sum of the lengths; appending a sequence of chunks gives the same dataset as appending their concatenation (associativity). It succeeds whenever feature counts and array ranks agree and e carries every field d carries.", "quantifier": "all well-formed datasets and all sequences of appended chunks", "why_tests_cant": "arm histories append unboundedly many batches; tests never append", "anchors": ["causal_effect_bandits/data.py:ExpData.append"]}
{"id": "C05", "title": "append is atomic on failure", "statement": "If d.append(e) raises, d is left exactly as it was (no half-appended data).", "quantifier": "all datasets d, e for which append raises", "why_tests_cant": "needs every failing input / crash point; tests exercise none", "anchors": ["causal_effect_bandits/data.py:ExpData.append"]}
{"id": "C06", "title": "subsample is an aligned two-way partition", "statement": "subsample(p) with 0<=p<=1 returns two datasets that together contain every unit exactly once, aligned and in the original order; it raises ValueError exactly when p is not in [0,1] (NaN included).", "quantifier": "every dataset, every p, every random mask", "why_tests_cant": "mask is random; quantifies over all masks", "anchors": ["causal_effect_bandits/data.py:ExpData.subsample"]}
{"id": "C07", "title": "consecutive slices tile a dataset", "statement": "Reading all_data[s:s+u] for s = 0, u, 2u, ... yields aligned batches whose concatenation is the dataset prefix; every slice has min(s+u,n)-min(s,n) units and slices past the end are empty rather than errors.", "quantifier": "every dataset, every batch size u and every start", "why_tests_cant": "stable-order replay relies on it for all sizes and for exhausted data", "anchors": ["causal_effect_bandits/data.py:ExpData.__getitem__"]}
{"id": "C08", "title": "coordinate transformers act row-wise", "statement": "The transformers from get_coordinate_mask_fn / get_remove_coordinates_fn keep the number and order of units, exposure and response, and map each covariate row to the selected (resp. remaining) columns in the stated order; removing column i equals selecting all other columns; out-of-range columns raise IndexError.", "quantifier": "every dataset, every index list, every removed index (negative included)", "why_tests_cant": "all shapes and index lists", "anchors": ["causal_effect_bandits/data.py:get_coordinate_mask_fn", "causal_effect_bandits/data.py:get_remove_coordinates_fn", "causal_effect_bandits/data.py:get_identity_fn"]}
{"id": "C09", "title": "transformers commute with slicing and appending", "statement": "Transforming then slicing / appending gives the same dataset as slicing / appending then transforming, so an arm that transforms incrementally sees the same covariates as one that transforms everything at once.", "quantifier": "every dataset, split point and index list", "why_tests_cant": "all batchings of all datasets", "anchors": ["causal_effect_bandits/data.py:get_coordinate_mask_fn", "causal_effect_bandits/data.py:ExpData.append", "causal_effect_bandits/data.py:ExpData.__getitem__", "causal_effect_bandits/arms.py:SampleSplittingArm.update"]}
{"id": "C10", "title": "TabularCPD conditional probabilities sum to one", "statement": "After TabularCPD.fit, for every x seen in the data, the predicted P(z|x) over the z support sum to exactly 1.", "quantifier": "every finite dataset, every min_ratio_to_uniform", "why_tests_cant": "must hold for every table of counts; the test uses one uniform table", "anchors": ["causal_effect_bandits/data.py:TabularCPD.fit", "causal_effect_bandits/data.py:TabularCPD.predict"]}
{"id": "C11", "title": "TabularCPD probabilities respect the floor", "statement": "After fit, for every x and z in the seen supports, predict(x,z) is at least min_prob (so positive) and at most 1-min_prob.", "quantifier": "every finite dataset, every min_ratio_to_uniform >= 1", "why_tests_cant": "must hold for every table of counts", "anchors": ["causal_effect_bandits/data.py:TabularCPD.fit"]}
{"id": "C12", "title": "TabularCPD.predict is observationally pure and zero off-support", "statement": "predict returns one number per (z,x) pair; pairs whose x or z never appeared in fit get exactly 0; calling predict (which inserts keys in the default dicts) any number of times never changes the answer of any later predict.", "quantifier": "every fitted table and every sequence of predict calls", "why_tests_cant": "sequence-of-calls property", "anchors": ["causal_effect_bandits/data.py:TabularCPD.predict"]}
{"id": "C13", "title": "TabularCPD refit forgets old data", "statement": "Calling fit a second time gives the same supports and predictions as fitting a fresh TabularCPD on the second dataset alone.", "quantifier": "every pair of datasets", "why_tests_cant": "history property; tests fit once", "anchors": ["causal_effect_bandits/data.py:TabularCPD.fit"]}
{"id": "C14", "title": "TabularCPD.fit is order independent and uses exact frequencies", "statement": "predict after fit depends only on how often each (x,z) pair occurs, not on row order; x_marginal[x] is the relative frequency of x, and these sum to one; when no entry of the row hits the floor or ceiling, predict(x,z) is exactly count(x,z)/count(x).", "quantifier": "every dataset and every reordering of its rows", "why_tests_cant": "all permutations of all datasets", "anchors": ["causal_effect_bandits/data.py:TabularCPD.fit"]}
{"id": "C15", "title": "SCM.generate samples in causal order", "statement": "generate(n) draws every variable exactly once in var_names order, passing each CPD exactly the already drawn samples of its declared parents in declared order; it raises ValueError exactly when some variable is listed before one of its parents; the result's covariate columns are the cov_variables in order, exposure and response the designated variables.", "quantifier": "every graph, variable ordering and CPD family", "why_tests_cant": "every DAG/ordering; tests use two graphs", "anchors": ["causal_effect_bandits/scm.py:SCM.generate"]}
{"id": "C16", "title": "SCM constructor validation", "statement": "SCM(...) raises ValueError exactly when a variable lacks a parents entry or a CPD, or the treatment, response or a covariate is not a variable; no other check is made.", "quantifier": "every constructor argument", "why_tests_cant": "all argument combinations", "anchors": ["causal_effect_bandits/scm.py:SCM.__init__"]}
{"id": "C17", "title": "compute_treatment_effect leaves the model intact", "statement": "compute_treatment_effect(n) returns an ATE estimate and leaves the SCM (its CPDs) as it was, even if sampling fails.", "quantifier": "every SCM and n", "why_tests_cant": "state after failure; untested method", "anchors": ["causal_effect_bandits/scm.py:SCM.compute_treatment_effect", "causal_effect_bandits/scm.py:deterministic_cpd"]}
{"id": "C18", "title": "categorical_conditioning selects per unit", "statement": "The i-th output is drawn from the distribution selected by the i-th value of the conditioning parent, evaluated on the i-th entries of the remaining parents; output length is the number of units; ValueError iff the conditioning index is not a valid parent position; IndexError when a category has no distribution.", "quantifier": "all parent lists, indices, category vectors and distributions", "why_tests_cant": "all inputs", "anchors": ["causal_effect_bandits/scm.py:categorical_conditioning"]}
{"id": "C19", "title": "sample-splitting arm keeps training and evaluation data disjoint", "statement": "After any sequence of updates with incremental splitting, every transformed unit ever fed to the arm is in exactly one of the two folds (aligned, never duplicated, never dropped), the nuisance parameter is only ever fitted on fold 1 and scores are only computed on fold 2, and get_num_units() is the total number of units fed.", "quantifier": "every sequence of update batches, every random split, every nuisance parameter", "why_tests_cant": "all histories and splits", "anchors": ["causal_effect_bandits/arms.py:SampleSplittingArm.update", "causal_effect_bandits/arms.py:SampleSplittingArm.get_num_units"]}
{"id": "C20", "title": "stable_splits=False re-splits all data", "statement": "With stable_splits=False the arm still uses all data seen so far (re-splitting it at each update), so get_num_units() is the total number of units fed.", "quantifier": "every sequence of at least two updates", "why_tests_cant": "history property", "anchors": ["causal_effect_bandits/arms.py:SampleSplittingArm.update"]}
{"id": "C21", "title": "update rejects invalid delta without side effects", "statement": "update(new_data, delta) with delta outside (0,1) (NaN included) raises ValueError and leaves the arm completely unchanged; delta inside (0,1) is never rejected for that reason.", "quantifier": "every arm state and every delta", "why_tests_cant": "all states and floats", "anchors": ["causal_effect_bandits/arms.py:SampleSplittingArm.update", "causal_effect_bandits/arms.py:BootstrapArm.update"]}
{"id": "C22", "title": "confidence interval brackets the variance estimate", "statement": "After a successful update, the arm's ci is (lcb, ucb) with 0 <= lcb <= var_est <= ucb for the CLT and finite-sample intervals, and ci is what update returned.", "quantifier": "every arm state, data, delta in (0,1) and valid hyperparameters", "why_tests_cant": "all score vectors and hyperparameters", "anchors": ["causal_effect_bandits/arms.py:SampleSplittingArm.update"]}
{"id": "C23", "title": "insufficient data gives the uninformative interval", "statement": "When the nuisance parameter reports too few samples, or (finite-sample intervals) fewer evaluation units than burn_in are available, update succeeds with ci = (0, inf); in the former case also var_est = inf and ate = nan.", "quantifier": "every such arm state", "why_tests_cant": "all states", "anchors": ["causal_effect_bandits/arms.py:SampleSplittingArm.update"]}
{"id": "C24", "title": "reset returns the arm to its just-instantiated state", "statement": "After reset() the arm is indistinguishable from a newly constructed one: same ci, estimates and counters now, and the same outputs for every later sequence of updates.", "quantifier": "every history before the reset and every update sequence after it", "why_tests_cant": "all histories", "anchors": ["causal_effect_bandits/arms.py:VarianceEstimatorArm.reset", "causal_effect_bandits/arms.py:SampleSplittingArm.reset", "causal_effect_bandits/bandits.py:BAIBanditAlgorithm.reset"]}
{"id": "C25", "title": "a failed update leaves the arm unchanged", "statement": "If update raises, the arm's data, counters, interval and estimates are as before the call.", "quantifier": "every failing update at every failure point", "why_tests_cant": "crash-point property", "anchors": ["causal_effect_bandits/arms.py:SampleSplittingArm.update", "causal_effect_bandits/data.py:ExpData.append"]}
{"id": "C26", "title": "finite-sample width behaves like a confidence width", "statement": "With nuisance width fixed, the finite-sample half-width is nonnegative, increases when delta decreases (nested intervals), and its statistical part tends to 0 as the number of evaluation units grows.", "quantifier": "every valid sub_gscale, tau_bound, burn_in, delta and n", "why_tests_cant": "real-analytic statement over all parameters", "anchors": ["causal_effect_bandits/arms.py:SampleSplittingArm.update"]}
{"id": "C27", "title": "CLT confidence sequence spends at most delta", "statement": "The per-update error levels used by the CLT interval over any number of updates sum to at most the requested delta (needed for the union bound).", "quantifier": "every number of updates and delta", "why_tests_cant": "infinite series", "anchors": ["causal_effect_bandits/arms.py:SampleSplittingArm.update"]}
{"id": "C28", "title": "bootstrap interval uses valid symmetric order statistics", "statement": "For every delta in (0,1) and number of bootstraps B>=1 (including the default ceil(4/delta)) the two percentile indices lie in [0,B), the interval is (k-th smallest, k-th largest) for the same k = floor(delta*B/2), and lcb <= ucb.", "quantifier": "every delta, B and every bootstrap sample vector", "why_tests_cant": "all deltas and sizes", "anchors": ["causal_effect_bandits/arms.py:BootstrapArm.update"]}
{"id": "C29", "title": "bootstrap arm reports how much data it has seen", "statement": "get_num_units() of a BootstrapArm equals the number of units it has been fed, so replaying a fixed dataset never feeds it the same unit twice.", "quantifier": "every update history", "why_tests_cant": "history property", "anchors": ["causal_effect_bandits/arms.py:BootstrapArm", "causal_effect_bandits/arms.py:VarianceEstimatorArm.get_num_units"]}
{"id": "C30", "title": "base arm default update", "statement": "VarianceEstimatorArm.update records the default interval (0, inf), counts the pull and returns the interval.", "quantifier": "every base arm state", "why_tests_cant": "universal over states; untested", "anchors": ["causal_effect_bandits/arms.py:VarianceEstimatorArm.update", "causal_effect_bandits/arms.py:VarianceEstimatorArm.num_pulled"]}
{"id": "C31", "title": "history arrays are complete and faithful", "statement": "In the returned BanditData all per-arm histories (lcb, ucb, variance, samples) of all arms and cum_samples have one entry per round, and the entry of a round is cost times the arm's interval/estimate as it stood at the end of that round.", "quantifier": "every arm implementation, data source, configuration and random outcome, each of the three algorithms", "why_tests_cant": "all runs", "anchors": ["causal_effect_bandits/bandits.py:UniformAlgorithm.run", "causal_effect_bandits/bandits.py:LUCBAlgorithm.run", "causal_effect_bandits/bandits.py:SuccessiveEliminationAlgorithm.run"]}
{"id": "C32", "title": "sample accounting is exact", "statement": "For every round, the increase of cum_samples equals the sum over arms of samples_by_arm for that round.", "quantifier": "every run of every algorithm", "why_tests_cant": "all runs and random arm choices", "anchors": ["causal_effect_bandits/bandits.py:UniformAlgorithm.run", "causal_effect_bandits/bandits.py:LUCBAlgorithm.run", "causal_effect_bandits/bandits.py:SuccessiveEliminationAlgorithm.run"]}
{"id": "C33", "title": "sample limit is respected up to one round", "statement": "A run continues past a round only if the cumulative number of samples was within sample_limit: all entries of cum_samples except the last are <= sample_limit and the last exceeds it by at most one round's samples.", "quantifier": "every run of every algorithm", "why_tests_cant": "all runs", "anchors": ["causal_effect_bandits/bandits.py:UniformAlgorithm.run", "causal_effect_bandits/bandits.py:LUCBAlgorithm.run", "causal_effect_bandits/bandits.py:SuccessiveEliminationAlgorithm.run"]}
{"id": "C34", "title": "runs terminate under a finite sample limit", "statement": "With at least one arm, units_per_round >= 1 and a finite sample_limit, run() stops (returns or raises) within an explicit number of rounds whatever the arms report. With units_per_round = 0, which nothing excludes, no run with a limit from 0 on is ended by the limit, and a run of Uniform or LUCB whose arms never change and do not pass the stopping test never returns.", "quantifier": "every arm implementation, data source and random outcome", "why_tests_cant": "termination is not testable", "anchors": ["causal_effect_bandits/bandits.py:UniformAlgorithm.run", "causal_effect_bandits/bandits.py:LUCBAlgorithm.run", "causal_effect_bandits/bandits.py:SuccessiveEliminationAlgorithm.run"]}
{"id": "C35", "title": "early stopping implies separation", "statement": "If Uniform or LUCB stops before exceeding the sample limit, best_arm is a single arm whose final recorded ucb is strictly below the final recorded lcb (minus error_tol) of every other arm, all recorded final ucbs are finite, and it has the smallest recorded variance estimate.", "quantifier": "every run", "why_tests_cant": "all runs", "anchors": ["causal_effect_bandits/bandits.py:BAIBanditAlgorithm._check_fixed_conf_end_condition"]}
{"id": "C36", "title": "best-arm identification is correct when intervals are valid", "statement": "If at the final round every arm's recorded interval contains its true cost-adjusted variance and Uniform/LUCB stopped before the limit, the returned arm is the unique true minimiser (by more than error_tol). For successive elimination the same holds if all recorded intervals contain the true values strictly.", "quantifier": "every run and every vector of true values", "why_tests_cant": "all runs; the core PAC guarantee", "anchors": ["causal_effect_bandits/bandits.py:BAIBanditAlgorithm._check_fixed_conf_end_condition", "causal_effect_bandits/bandits.py:SuccessiveEliminationAlgorithm.run"]}
{"id": "C37", "title": "error_tol relaxes the stopping rule", "statement": "error_tol is the allowed suboptimality: raising it never makes the stopping test fail where a smaller tolerance passed, and arms whose intervals overlap by less than error_tol can be declared done.", "quantifier": "all bounds and tolerances", "why_tests_cant": "all inputs", "anchors": ["causal_effect_bandits/bandits.py:BAIBanditAlgorithm.__init__", "causal_effect_bandits/bandits.py:BAIBanditAlgorithm._check_fixed_conf_end_condition"]}
{"id": "C38", "title": "eliminated arms stay eliminated", "statement": "In successive elimination, once an arm receives no samples in a round it never receives samples again; each round's sampled set is a subset of the previous one and every sampled arm gets exactly units_per_round.", "quantifier": "every run", "why_tests_cant": "all runs", "anchors": ["causal_effect_bandits/bandits.py:SuccessiveEliminationAlgorithm.run"]}
{"id": "C39", "title": "successive elimination returns at least one arm", "statement": "run() of SuccessiveEliminationAlgorithm with at least one arm returns a non-empty best_arm list.", "quantifier": "every run", "why_tests_cant": "all runs, degenerate intervals", "anchors": ["causal_effect_bandits/bandits.py:SuccessiveEliminationAlgorithm.run"]}
{"id": "C40", "title": "successive elimination never returns an eliminated arm", "statement": "Every arm in best_arm was sampled in the last round (it was still a candidate).", "quantifier": "every run, in particular those ended by the sample limit", "why_tests_cant": "needs adversarial histories", "anchors": ["causal_effect_bandits/bandits.py:SuccessiveEliminationAlgorithm.run"]}
{"id": "C41", "title": "LUCB pulls two distinct informative arms", "statement": "Each LUCB round pulls two different arms: one with the lowest variance estimate, the other from the remaining arms with the lowest lcb.", "quantifier": "every vector of bounds with at least two arms and every random tie-break", "why_tests_cant": "all bound vectors and tie-breaks", "anchors": ["causal_effect_bandits/bandits.py:LUCBAlgorithm.select_arms"]}
{"id": "C42", "title": "stable order replays the data identically for every arm", "statement": "With all_data given and freshly reset arms, the p-th pull of any arm in any algorithm feeds it exactly all_data[p*u:(p+1)*u], independently of the other arms and of the algorithm; so for arms whose update is deterministic the sequence of intervals over pulls is identical across algorithms.", "quantifier": "every dataset, unit size, arm implementation that counts its units, algorithm and random outcome", "why_tests_cant": "all runs of all algorithms", "anchors": ["causal_effect_bandits/bandits.py:UniformAlgorithm.run", "causal_effect_bandits/bandits.py:LUCBAlgorithm.run", "causal_effect_bandits/bandits.py:SuccessiveEliminationAlgorithm.run"]}
{"id": "C43", "title": "error probability is split evenly over the arms", "statement": "Every arm update performed by a bandit uses delta = error_prob / number_of_arms; the levels sum to error_prob and each lies in (0,1), so no arm rejects it.", "quantifier": "every run", "why_tests_cant": "all runs", "anchors": ["causal_effect_bandits/bandits.py:UniformAlgorithm.run", "causal_effect_bandits/bandits.py:LUCBAlgorithm.run", "causal_effect_bandits/bandits.py:SuccessiveEliminationAlgorithm.run"]}
{"id": "C44", "title": "bandit constructor validation", "statement": "Construction raises exactly when error_prob is not in (0,1), error_tol is negative, confidence is given outside (0,1), or neither confidence nor a finite sample limit is given; a successfully constructed bandit can be run without a configuration-related exception.", "quantifier": "all argument combinations, including defaults of each subclass", "why_tests_cant": "all arguments", "anchors": ["causal_effect_bandits/bandits.py:BAIBanditAlgorithm.__init__", "causal_effect_bandits/bandits.py:LUCBAlgorithm.__init__", "causal_effect_bandits/bandits.py:SuccessiveEliminationAlgorithm.__init__"]}
{"id": "C45", "title": "runs ended by the limit return the arms with the lowest estimate", "statement": "A run ended by the sample limit returns exactly the arms whose current cost-adjusted variance estimate equals the minimum, in arm order; this list is non-empty when no estimate is NaN.", "quantifier": "every run", "why_tests_cant": "all runs", "anchors": ["causal_effect_bandits/bandits.py:BAIBanditAlgorithm._select_arms_with_mask", "causal_effect_bandits/bandits.py:UniformAlgorithm.run"]}
{"id": "C46", "title": "NaN estimates never end the game", "statement": "If some arm's variance estimate is NaN, the fixed-confidence end condition reports that the game is not over.", "quantifier": "all vectors of bounds", "why_tests_cant": "order-dependent NaN comparisons", "anchors": ["causal_effect_bandits/bandits.py:BAIBanditAlgorithm._check_fixed_conf_end_condition"]}
{"id": "C47", "title": "a single-arm bandit returns its only arm", "statement": "Running any of the algorithms with exactly one arm returns that arm.", "quantifier": "every single-arm run", "why_tests_cant": "all arms and configurations", "anchors": ["causal_effect_bandits/bandits.py:UniformAlgorithm.run", "causal_effect_bandits/bandits.py:LUCBAlgorithm.run", "causal_effect_bandits/bandits.py:SuccessiveEliminationAlgorithm.run"]}
{"id": "C48", "title": "AIPW readiness", "statement": "has_enough_samples() of an AIPW parameter is True iff since construction/reset some fit saw at least min_units treated and at least min_units control units; a fit with too few units leaves the fitted models untouched; a fit with the wrong number of features raises ValueError and changes nothing.", "quantifier": "every sequence of fits and resets", "why_tests_cant": "history property", "anchors": ["causal_effect_bandits/parameters.py:AIPW.fit", "causal_effect_bandits/parameters.py:AIPW.has_enough_samples", "causal_effect_bandits/parameters.py:AIPW.reset"]}
{"id": "C49", "title": "AIPW scores are well defined and bounded", "statement": "For 1e-15 <= min_overlap <= 1/2 a fitted AIPW never raises when scoring, returns one score per unit, uses propensities in [min_overlap, 1-min_overlap], and for binary exposure the score differs from mu(1,z)-mu(0,z) by at most |y-mu(x,z)|/min_overlap.", "quantifier": "all data, all fitted models", "why_tests_cant": "all predictors and data", "anchors": ["causal_effect_bandits/parameters.py:AIPW.transform", "causal_effect_bandits/parameters.py:AIPW._phi"]}
{"id": "C50", "title": "AIPW score is doubly robust", "statement": "If either the outcome model or the (clipped) propensity model is correct, the population mean of the AIPW score equals the average treatment effect.", "quantifier": "every finite population and every (possibly wrong) other model", "why_tests_cant": "population identity for all distributions", "anchors": ["causal_effect_bandits/parameters.py:AIPW._phi"]}
{"id": "C51", "title": "front-door score evaluates the documented formula", "statement": "FrontDoorLinearFiniteZ.calculate_score returns, per unit, (y-mu)(P(z|1)-P(z|0))/P(z|x) + sum_z' mu(z',x)(P(z'|1)-P(z'|0)) + w(x)(f_2-f_3) for covariates of any dimension.", "quantifier": "all fitted models, data and covariate dimensions", "why_tests_cant": "all dimensions; the test uses one feature", "anchors": ["causal_effect_bandits/parameters.py:FrontDoorLinearFiniteZ.transform", "causal_effect_bandits/parameters.py:FrontDoorLinearFiniteZ._phi", "causal_effect_bandits/data.py:TabularCPD.predict"]}
{"id": "C52", "title": "front-door score is unbiased at the true nuisance", "statement": "With the true response function, conditional covariate distribution and exposure probability, the population mean of the front-door score equals the front-door ATE.", "quantifier": "every finite front-door population", "why_tests_cant": "population identity", "anchors": ["causal_effect_bandits/parameters.py:FrontDoorLinearFiniteZ._phi"]}
{"id": "C53", "title": "linear-regression score averages to the ridge coefficient", "statement": "On the data it was fitted on, the mean of LinearRegressionParameter's scores equals the exposure coefficient of the ridge regression of Y on (X,Z).", "quantifier": "every data matrix and l_reg > 0", "why_tests_cant": "matrix identity for all sizes", "anchors": ["causal_effect_bandits/parameters.py:LinearRegressionParameter.fit", "causal_effect_bandits/parameters.py:LinearRegressionParameter._phi"]}
{"id": "C54", "title": "binary linear parameter tolerates one-sided data", "statement": "LinearParameterBinaryTreatment.fit on data without treated or without control units logs a warning and returns without raising and without marking the model as fit; after a successful fit has_enough_samples() is True so that arms leave the uninformative interval.", "quantifier": "all datasets", "why_tests_cant": "all datasets", "anchors": ["causal_effect_bandits/parameters.py:LinearParameterBinaryTreatment.fit", "causal_effect_bandits/parameters.py:NuisanceParameter.has_enough_samples"]}
{"id": "C55", "title": "nuisance confidence widths are well defined", "statement": "For delta in (0,1), rho>0, sub_g>0 the 'not enough samples' guard of calculate_cs_width never triggers and the radius is a positive real for every data matrix; the returned width is nonnegative for min_overlap in (0,1].", "quantifier": "all data matrices of all sizes", "why_tests_cant": "matrix inequality for all dimensions", "anchors": ["causal_effect_bandits/parameters.py:AIPW.calculate_cs_width", "causal_effect_bandits/parameters.py:FrontDoorLinearFiniteZ.calculate_cs_width"]}
{"id": "C56", "title": "front-door width accounts for the support size", "statement": "The front-door nuisance width grows with the number of distinct covariate values, whose conditional probabilities must all be estimated.", "quantifier": "all data", "why_tests_cant": "all inputs", "anchors": ["causal_effect_bandits/parameters.py:FrontDoorLinearFiniteZ.calculate_cs_width"]}
{"id": "C57", "title": "resetting a nuisance parameter forgets the fit", "statement": "After reset() a nuisance parameter reports has_enough_samples() == False and behaves like a new one.", "quantifier": "all histories, each parameter class", "why_tests_cant": "history property", "anchors": ["causal_effect_bandits/parameters.py:AIPW.reset", "causal_effect_bandits/parameters.py:FrontDoorLinearFiniteZ.reset", "causal_effect_bandits/parameters.py:LinearRegressionParameter", "causal_effect_bandits/parameters.py:LinearParameterBinaryTreatment.reset"]}
{"id": "C58", "title": "adjustment-set enumeration is complete", "statement": "For M back-door paths the enumeration yields 2^M arms, one for each way of choosing Z_i or V_i for every path, with distinct names spelling out the choice, cost = sum of the chosen costs and mask = concatenation of the chosen index blocks.", "quantifier": "every M >= 1", "why_tests_cant": "all M", "anchors": ["causal_effect_bandits/paper_utils.py:generate_example_from_cpd"]}
{"id": "C59", "title": "arms observe the covariates they are named after", "statement": "The index block used for Z_i (V_i) selects exactly the columns of the generated covariate matrix that hold variable Z_i (V_i).", "quantifier": "every M and dimension vectors", "why_tests_cant": "all dimensions", "anchors": ["causal_effect_bandits/paper_utils.py:generate_example_from_cpd", "causal_effect_bandits/scm.py:SCM.generate"]}
{"id": "C60", "title": "the paper's graph is well formed", "statement": "The SCM built by generate_example_from_cpd passes construction and its generate never raises the ordering error, for every number of paths, provided the CPD dictionary has all variables.", "quantifier": "every M", "why_tests_cant": "all M", "anchors": ["causal_effect_bandits/paper_utils.py:generate_example_from_cpd", "causal_effect_bandits/scm.py:SCM.generate"]}
{"id": "C61", "title": "the secretary selection keeps a large effect", "statement": "The selected effect tau is at least as large as the best of the ten sampled candidates, and the retained pair of distributions is the one with that effect.", "quantifier": "every random stream", "why_tests_cant": "all random streams", "anchors": ["causal_effect_bandits/paper_utils.py:get_section_5_1_cpds", "causal_effect_bandits/paper_utils.py:get_section_5_2_cpds"]}
{"id": "C62", "title": "softmax is a probability vector", "statement": "softmax(x) is positive, sums to one, is invariant under adding a constant and preserves order.", "quantifier": "every non-empty real vector", "why_tests_cant": "all vectors", "anchors": ["causal_effect_bandits/paper_utils.py:softmax", "causal_effect_bandits/nonlinear_utils.py:softmax", "causal_effect_bandits/test_utils.py:softmax"]}
{"id": "C63", "title": "random functions have independent components", "statement": "generate_random_nd_function with out_dim > 1 draws each output component from its own random sample.", "quantifier": "every dim, out_dim, seed", "why_tests_cant": "all seeds", "anchors": ["causal_effect_bandits/nonlinear_utils.py:generate_random_nd_function"]}
{"id": "C64", "title": "random function grid covers the box", "statement": "The design points are the n_points^dim grid of the box [min_x,max_x]^dim, each coordinate inside the box.", "quantifier": "every dim, n_points, box", "why_tests_cant": "all sizes", "anchors": ["causal_effect_bandits/nonlinear_utils.py:generate_random_nd_function"]}
{"id": "C65", "title": "example SCM ground truth is exact", "statement": "The statistics returned with back_door_scm and frontdoor_scm are the exact moments of the generated distribution.", "quantifier": "every drawn parameter value", "why_tests_cant": "tests compare with tolerance growing with the response", "anchors": ["causal_effect_bandits/example_scm.py:back_door_scm", "causal_effect_bandits/example_scm.py:frontdoor_scm"]}
{"id": "C66", "title": "run_single_arm bookkeeping", "statement": "run_single_arm performs ceil(max_samples/increment) updates, its five lists have that length, and n_samples lists the cumulative multiples of increment.", "quantifier": "every arm, max_samples and increment >= 1", "why_tests_cant": "all sizes; termination", "anchors": ["causal_effect_bandits/test_utils.py:run_single_arm"]}
{"id": "C67", "title": "set_to_truth gives the true scores", "statement": "After set_to_truth(data_gen) with a LinearDataGenerator, the score of every unit is the one computed from the true response function, the true propensity and tau, and estimate_true_variance is the sample variance of those scores.", "quantifier": "every linear model, every history of the parameter, every dataset", "why_tests_cant": "all models and histories; tests fit first and compare with a tolerance", "anchors": ["causal_effect_bandits/parameters.py:AIPW.set_to_truth", "causal_effect_bandits/parameters.py:LinearParameterBinaryTreatment.set_to_truth", "causal_effect_bandits/test_utils.py:estimate_true_variance"]}
{"id": "C68", "title": "the binary linear score is the difference of the two regressions", "statement": "After a fit, the score of every unit is the prediction of the regressor fitted on the treated units minus that of the regressor fitted on the control units.", "quantifier": "every dataset and regressor", "why_tests_cant": "all regressors and data", "anchors": ["causal_effect_bandits/parameters.py:LinearParameterBinaryTreatment.calculate_score", "causal_effect_bandits/parameters.py:LinearParameterBinaryTreatment.transform"]}
{"id": "C69", "title": "data of the wrong dimension is refused", "statement": "fit and calculate_score raise ValueError and change nothing when the number of features differs from the one given to the constructor.", "quantifier": "every state, every dataset, each parameter class", "why_tests_cant": "all states and data", "anchors": ["causal_effect_bandits/parameters.py:AIPW.fit", "causal_effect_bandits/parameters.py:AIPW.transform", "causal_effect_bandits/parameters.py:LinearParameterBinaryTreatment.fit", "causal_effect_bandits/parameters.py:FrontDoorLinearFiniteZ.fit", "causal_effect_bandits/parameters.py:FrontDoorLinearFiniteZ.transform", "causal_effect_bandits/parameters.py:LinearRegressionParameter.fit"]}
{"id": "C70", "title": "has_enough_samples holds exactly after a completed fit", "statement": "has_enough_samples() is True exactly when some fit with enough units has completed since the last reset.", "quantifier": "all histories, each parameter class", "why_tests_cant": "history property", "anchors": ["causal_effect_bandits/parameters.py:AIPW.has_enough_samples", "causal_effect_bandits/parameters.py:FrontDoorLinearFiniteZ.has_enough_samples", "causal_effect_bandits/parameters.py:LinearRegressionParameter.has_enough_samples", "causal_effect_bandits/parameters.py:LinearParameterBinaryTreatment"]}
{"id": "C71", "title": "LinearDataGenerator samples its linear model", "statement": "generate(n) returns n units with y = x.beta + tau t + noise_model(n) and P(t=1) = sigmoid(x.gamma), using the noise array whose length has been checked, and raises ValueError when it has another length.", "quantifier": "every n, model, noise model and random stream", "why_tests_cant": "all noise models and streams", "anchors": ["causal_effect_bandits/data.py:LinearDataGenerator.generate", "causal_effect_bandits/data.py:LinearDataGenerator.__init__"]}
{"id": "C72", "title": "the CPD helpers compute the stated structural equations", "statement": "normal_cpd, transformed_normal_cpd, add_gaussian_noise, get_structural_equation_from_fn and logistic_linear_bernoulli_cpd return, for every unit, the stated function of that unit's parent values plus that unit's own noise, and refuse parents, coefficients or functions of mismatched number or shape.", "quantifier": "every number and shape of parents, all coefficients, every random stream", "why_tests_cant": "all shapes and streams", "anchors": ["causal_effect_bandits/scm.py:normal_cpd", "causal_effect_bandits/scm.py:transformed_normal_cpd", "causal_effect_bandits/scm.py:add_gaussian_noise", "causal_effect_bandits/scm.py:logistic_linear_bernoulli_cpd"]}
{"id": "C73", "title": "the Section 5.1 example samples its structural equations", "statement": "For M >= 1 back-door paths and a dimension for every variable, get_section_5_1_cpds with the paper's graph gives an SCM whose generate(n) never raises and returns n units that satisfy the structural equations, each variable drawn from fresh random numbers. The parameters are the documented multiples of consecutive normal numbers of one stream, none of them used twice.", "quantifier": "every M, all dimensions, every n, every random stream", "why_tests_cant": "all sizes and streams", "anchors": ["causal_effect_bandits/paper_utils.py:get_section_5_1_cpds", "causal_effect_bandits/paper_utils.py:generate_example_from_cpd", "causal_effect_bandits/scm.py:SCM.generate"]}
{"id": "C74", "title": "the Section 5.2 example samples its structural equations", "statement": "With a dimension for every variable, get_section_5_2_cpds with the paper's graph gives an SCM whose generate(n) never raises and returns n units that satisfy the nonlinear structural equations with the random functions of the example, each variable drawn from fresh random numbers.", "quantifier": "every M >= 1, all dimensions, every n, every regressor and random stream", "why_tests_cant": "all sizes and streams", "anchors": ["causal_effect_bandits/paper_utils.py:get_section_5_2_cpds", "causal_effect_bandits/paper_utils.py:generate_example_from_cpd", "causal_effect_bandits/nonlinear_utils.py:generate_random_nd_function"]}
{"id": "C75", "title": "the effect of the examples is the selected one", "statement": "Setting the treatment in the examples of Sections 5.1 and 5.2 changes nothing but X, Z0 and Y, and the mean difference of the responses is the tau with which the example was selected.", "quantifier": "every M, all dimensions, every n, every random stream and regressor", "why_tests_cant": "an integral over the randomness, for all examples", "anchors": ["causal_effect_bandits/paper_utils.py:get_section_5_1_cpds", "causal_effect_bandits/paper_utils.py:get_section_5_2_cpds", "causal_effect_bandits/scm.py:compute_treatment_effect", "causal_effect_bandits/scm.py:deterministic_cpd"]}
{"id": "C76", "title": "the seed determines the example", "statement": "get_section_5_1_example and get_section_5_2_example depend on the random numbers through the seed only, and leave NumPy's global generator as it was.", "quantifier": "every seed, every state of the global generator, all dimensions", "why_tests_cant": "hidden dependence on global state: two runs in one process cannot show it reliably", "anchors": ["causal_effect_bandits/paper_utils.py:get_section_5_1_example", "causal_effect_bandits/paper_utils.py:get_section_5_2_example", "causal_effect_bandits/paper_utils.py:get_section_5_2_cpds"]}
{"id": "C77", "title": "a reset bandit behaves like a new one", "statement": "After reset() a bandit returns the same data, raises the same exception and uses the same random numbers as with newly made arms, whatever bandits sharing its arms ran before, completed or not.", "quantifier": "every sequence of earlier runs and resets, every configuration, data source and random stream; all three algorithms", "why_tests_cant": "leftover state shows only in later runs; unboundedly many histories", "anchors": ["causal_effect_bandits/bandits.py:BAIBanditAlgorithm.reset", "causal_effect_bandits/arms.py:VarianceEstimatorArm.reset", "causal_effect_bandits/arms.py:SampleSplittingArm.reset", "causal_effect_bandits/parameters.py:AIPWLinearLogistic.reset", "causal_effect_bandits/parameters.py:FrontDoorLinearFiniteZ.reset"]}
{"id": "C78", "title": "a bandit run with reliable arms returns a result", "statement": "If the data source never raises and the arms never raise on its data and always have estimates that are not NaN afterwards, run() of each algorithm returns a BanditData after finitely many rounds.", "quantifier": "every reliable set of arms, every configuration with a finite sample limit, every random stream", "why_tests_cant": "all executions; exceptions deep inside a run", "anchors": ["causal_effect_bandits/bandits.py:UniformAlgorithm.run", "causal_effect_bandits/bandits.py:LUCBAlgorithm.run", "causal_effect_bandits/bandits.py:LUCBAlgorithm.select_arms", "causal_effect_bandits/bandits.py:SuccessiveEliminationAlgorithm.run"]}
{"id": "C79", "title": "an update of a sample-splitting arm does not raise", "statement": "With batches of two or more units with exposures 0 and 1, a SampleSplittingArm with an AIPW or a front-door parameter never raises in update: every update returns an interval without NaN, and the variance estimate is not NaN.", "quantifier": "every sequence of batches and confidence levels, every split, every regressor that can be fitted", "why_tests_cant": "all histories of batches; exceptions and NaN deep inside numerical code", "anchors": ["causal_effect_bandits/arms.py:SampleSplittingArm.update", "causal_effect_bandits/parameters.py:AIPW.fit", "causal_effect_bandits/parameters.py:AIPW.calculate_score", "causal_effect_bandits/parameters.py:AIPW.calculate_cs_width", "causal_effect_bandits/parameters.py:FrontDoorLinearFiniteZ.fit", "causal_effect_bandits/parameters.py:FrontDoorLinearFiniteZ.calculate_score", "causal_effect_bandits/data.py:ExpData.k_fold"]}
{"id": "C80", "title": "the experiments of the paper do not raise", "statement": "get_section_5_1_example and get_section_5_2_example return an example with 1 + 2^M arms, and every later run of its three bandits returns a result, whatever runs and resets came before.", "quantifier": "every M, all dimensions and positive costs, every finite sample limit, every sequence of runs and resets, every random stream and every regressor that can be fitted", "why_tests_cant": "whole experiments: all sizes, streams and orders of calls", "anchors": ["causal_effect_bandits/paper_utils.py:get_section_5_1_example", "causal_effect_bandits/paper_utils.py:get_section_5_2_example", "causal_effect_bandits/paper_utils.py:generate_example_from_cpd", "causal_effect_bandits/bandits.py:UniformAlgorithm.run", "causal_effect_bandits/bandits.py:LUCBAlgorithm.run", "causal_effect_bandits/bandits.py:SuccessiveEliminationAlgorithm.run", "causal_effect_bandits/arms.py:SampleSplittingArm.update"]}
{"id": "C81", "title": "runs on a fixed dataset do not raise", "statement": "run(all_data) with a dataset of sample_limit + units_per_round * len(arm_list) units, as drawn in the notebook, returns a result after bandit.reset(), whatever the bandits did before.", "quantifier": "every dataset of that size drawn from the examples, every sequence of earlier calls (completed or not), every random stream; all reliable arms", "why_tests_cant": "whole experiments; the data must never run out in any execution", "anchors": ["causal_effect_bandits/bandits.py:UniformAlgorithm.run", "causal_effect_bandits/bandits.py:LUCBAlgorithm.run", "causal_effect_bandits/bandits.py:SuccessiveEliminationAlgorithm.run", "causal_effect_bandits/arms.py:SampleSplittingArm.update", "causal_effect_bandits/data.py:ExpData.__getitem__"]}
{"id": "C82", "title": "plots show the recorded rounds", "statement": "plot_bandit_results draws, for every arm listed, one point per round that is not ignored, with the samples used up to that round and the cost-weighted estimate and bounds of that arm at its end; it raises KeyError exactly for arms the bandit does not have.", "quantifier": "every run of the three algorithms, every list of arms, every initial_points_to_ignore (None and negative numbers included)", "why_tests_cant": "all runs; misaligned series look plausible in a figure", "anchors": ["causal_effect_bandits/plotting_utils.py:plot_bandit_results", "causal_effect_bandits/bandits.py:BanditData"]}
{"id": "C83", "title": "the reported sample counts are comparable", "statement": "The number of samples the notebook reports for the uniform algorithm, computed from the result of successive elimination, is what a uniform run uses in the same number of rounds, and is never below the number reported for successive elimination.", "quantifier": "every run of successive elimination, every set of arms", "why_tests_cant": "all executions; the notebook never runs the uniform algorithm", "anchors": ["causal_effect_bandits/bandits.py:SuccessiveEliminationAlgorithm.run", "causal_effect_bandits/bandits.py:UniformAlgorithm.run", "causal_effect_bandits/bandits.py:BanditData"]}
{"id": "C84", "title": "the best m arms are plotted", "statement": "The arms selected in the notebook for plotting are the m arms with the smallest last estimates.", "quantifier": "every run of the three algorithms, every m", "why_tests_cant": "all runs; ties and NaN", "anchors": ["causal_effect_bandits/bandits.py:BanditData", "causal_effect_bandits/plotting_utils.py:plot_bandit_results"]}
{"id": "C85", "title": "surface plots show the function", "statement": "plot_3d_function draws above every mesh point of the rectangle the value of the function at that point, for every function with one output, and raises ValueError for the generated functions with more outputs.", "quantifier": "every function, rectangle and mesh size", "why_tests_cant": "all functions and rectangles; a transposed surface looks plausible", "anchors": ["causal_effect_bandits/plotting_utils.py:plot_3d_function", "causal_effect_bandits/nonlinear_utils.py:generate_random_nd_function"]}
{"id": "C86", "title": "runs end once the intervals are narrow", "statement": "If in some round all recorded intervals contain the estimates and the true values and are no longer than w, and all other arms are worse than the best one by more than 2w + error_tol, then UniformAlgorithm and LUCBAlgorithm end with that round and return the best arm; in successive elimination an arm that is worse by 3w is not sampled after that round.", "quantifier": "every run, every set of arms, every data source and random stream, every round (for LUCB: but the first)", "why_tests_cant": "all executions; a stopping rule that is too strict only costs samples and no test fails", "anchors": ["causal_effect_bandits/bandits.py:BAIBanditAlgorithm._check_fixed_conf_end_condition", "causal_effect_bandits/bandits.py:UniformAlgorithm.run", "causal_effect_bandits/bandits.py:LUCBAlgorithm.run", "causal_effect_bandits/bandits.py:SuccessiveEliminationAlgorithm.run"]}
{"id": "C87", "title": "LUCB makes progress", "statement": "While the intervals are finite and contain the true values and no two arms tie, every LUCB round that follows an unsuccessful stopping test pulls an arm whose interval is longer than w, where 2w + error_tol is less than the gap of the best arm; so if arm a has an interval no longer than w after N_a batches, the run has at most 2 + sum of (N_a - 1) rounds.", "quantifier": "every run, every set of arms, every data source and random stream", "why_tests_cant": "all executions; a starved arm shows only as a longer run", "anchors": ["causal_effect_bandits/bandits.py:LUCBAlgorithm.select_arms", "causal_effect_bandits/bandits.py:LUCBAlgorithm.run", "causal_effect_bandits/bandits.py:BAIBanditAlgorithm._check_fixed_conf_end_condition"]}
{"id": "C88", "title": "the error probability of a run is bounded", "statement": "If the probability that any interval of an arm misses its true value is at most the level its update is called with, a run of a bandit constructed with error_prob that ends within the sample limit returns anything but the best arm with probability at most error_prob; for arms whose k-th interval misses with probability at most level/k^2 (CLT) the bound is error_prob * pi^2/6.", "quantifier": "every probability measure on random streams, every set of arms, every configuration, all three algorithms", "why_tests_cant": "a statement on the distribution of all executions; small error probabilities cannot be estimated by tests", "anchors": ["causal_effect_bandits/bandits.py:BAIBanditAlgorithm.__init__", "causal_effect_bandits/bandits.py:UniformAlgorithm.run", "causal_effect_bandits/bandits.py:LUCBAlgorithm.run", "causal_effect_bandits/bandits.py:SuccessiveEliminationAlgorithm.run", "causal_effect_bandits/arms.py:SampleSplittingArm.update"]}
{"id": "C89", "title": "CLT intervals have the nominal coverage", "statement": "A CLT interval contains the variance of the scores with a probability that tends to 1 - delta/k^2 (k: the number of the update) as the number of evaluated units grows, for independent identically distributed scores with finite fourth moment.", "quantifier": "every distribution of scores with finite fourth moment (and a squared deviation that is not constant), every k and delta, every sequence of updates, every nuisance parameter that gives those scores", "why_tests_cant": "a limit of probabilities, for all distributions", "anchors": ["causal_effect_bandits/arms.py:SampleSplittingArm.update"]}
{"id": "C90", "title": "finite-sample intervals have the stated coverage", "statement": "A finite-sample interval contains the variance of the scores with a probability of at least 1 - delta (in the limit of many units), and the intervals of successive updates are a confidence sequence: with probability at least 1 - delta all of them contain it.", "quantifier": "every distribution of sub-Gaussian scores, all hyperparameters and delta, every sequence of updates", "why_tests_cant": "probabilities of infinitely many events, for all distributions", "anchors": ["causal_effect_bandits/arms.py:SampleSplittingArm.update"]}
{"id": "C91", "title": "estimates and intervals converge to the truth", "statement": "Almost surely the recorded estimates of effect and variance, and both ends of the confidence interval, converge to the mean and the variance of the scores as the number of evaluated units grows, also with an estimated nuisance parameter whose error tends to zero and (for CLT) as the level decreases with every update.", "quantifier": "every distribution of scores (finite variance; finite fourth moment for CLT intervals), every nuisance parameter whose error vanishes in square mean (for CLT intervals: in fourth mean), every sequence of updates, all hyperparameters and delta", "why_tests_cant": "an almost sure limit, for all distributions", "anchors": ["causal_effect_bandits/arms.py:SampleSplittingArm.update"]}
{"id": "C92", "title": "CHI2 intervals have the stated coverage", "statement": "A CHI2 interval contains the variance of the scores with a probability of at least 1 - delta (in the limit of many units), and with probability at least 1 - delta the intervals of all updates contain it.", "quantifier": "every distribution of scores with finite fourth moment, every delta, every sequence of updates", "why_tests_cant": "probabilities of infinitely many events, for all distributions", "anchors": ["causal_effect_bandits/arms.py:SampleSplittingArm.update"]}
{"id": "C93", "title": "runs without a sample limit end", "statement": "A run of a bandit without a sample limit comes to an end if the intervals and estimates of its arms converge to true values of which the smallest is less than all others by more than error_tol; with sample-splitting arms this is so with probability one. If two arms are equally good, the run ends with probability at most error_prob.", "quantifier": "every set of arms, every data source and random stream, every distribution of scores with finite fourth moment, all three algorithms", "why_tests_cant": "a run that never ends cannot be observed; almost sure statement on infinite executions", "anchors": ["causal_effect_bandits/bandits.py:UniformAlgorithm.run", "causal_effect_bandits/bandits.py:LUCBAlgorithm.run", "causal_effect_bandits/bandits.py:SuccessiveEliminationAlgorithm.run", "causal_effect_bandits/bandits.py:LUCBAlgorithm.select_arms", "causal_effect_bandits/bandits.py:BAIBanditAlgorithm._check_fixed_conf_end_condition", "causal_effect_bandits/arms.py:SampleSplittingArm.update"]}
{"id": "C94", "title": "printing a TabularCPD shows the fitted table", "statement": "str() of a fitted TabularCPD lists every value of x_support() and, in its row, every value of z_support() exactly once, with the probability that predict returns for the pair, whatever was predicted before.", "quantifier": "every fit, every sequence of predictions between the fit and the printing", "why_tests_cant": "all histories; a lookup that inserts into the table shows only in later calls", "anchors": ["causal_effect_bandits/data.py:TabularCPD.__str__", "causal_effect_bandits/data.py:TabularCPD.predict", "causal_effect_bandits/data.py:TabularCPD.fit"]}
{"id": "C95", "title": "indexing a dataset selects units", "statement": "ExpData[key] consists of the units at the positions that the key denotes (slices with any bounds and step, integers, lists of integers, boolean masks), in that order, with covariates, exposures and responses aligned; a step of zero, a position out of range or a mask of another length is refused.", "quantifier": "every well-formed dataset, every slice, list of integers, mask and integer", "why_tests_cant": "all datasets and keys; tests use one or two slices", "anchors": ["causal_effect_bandits/data.py:ExpData.__getitem__", "causal_effect_bandits/data.py:ExpData.__init__"]}
{"id": "C96", "title": "the notebook's experiments are isolated and complete", "statement": "The sample counts a repetition of the notebook's experiments records depend only on the example, its data and the repetition number; they cover at least one batch per arm and exceed the limit by at most one round; the loop over the instances records n_instances increasing instances n_repetitions times each; and the loop over the numbers of back-door paths completes.", "quantifier": "every example that can be drawn, every earlier use of the arms, every state of the random generators, every number of instances and repetitions", "why_tests_cant": "all executions of hour-long experiments; leaking state between repetitions only biases the figures", "anchors": ["causal_effect_bandits/paper_utils.py:get_section_5_1_example", "causal_effect_bandits/paper_utils.py:get_section_5_2_example", "causal_effect_bandits/bandits.py:LUCBAlgorithm.run", "causal_effect_bandits/bandits.py:SuccessiveEliminationAlgorithm.run", "causal_effect_bandits/bandits.py:BAIBanditAlgorithm.reset", "causal_effect_bandits/arms.py:SampleSplittingArm.reset"]}
{"id": "C97", "title": "arms with linear regression are consistent", "statement": "An arm with a LinearRegressionParameter that is updated again and again with blocks of a stream of independent units never fails, and almost surely its estimate of the effect converges to the coefficient of the exposure in the least-squares regression of the response on exposure and covariates (tau in the documented model), its estimate of the variance to the variance of the exact score, and both ends of its CLT or CHI2 interval too.", "quantifier": "every distribution of units with finite moments and linearly independent regressors, every number of covariates, all block sizes from two on, every shuffling of the blocks, every positive l_reg and delta", "why_tests_cant": "an almost sure limit, for all distributions; biased estimates look plausible", "anchors": ["causal_effect_bandits/parameters.py:LinearRegressionParameter.fit", "causal_effect_bandits/parameters.py:LinearRegressionParameter._phi", "causal_effect_bandits/arms.py:SampleSplittingArm.update", "causal_effect_bandits/data.py:ExpData.k_fold"]}
{"id": "C98", "title": "arms with AIPW are consistent and doubly robust", "statement": "An arm with AIPWLinearLogistic that is updated again and again with blocks of a stream of independent units with binary exposure never fails, and almost surely its estimates of effect and variance converge to mean and variance of the AIPW score with the least-squares and logistic-regression coefficients of the population (both ends of CLT and CHI2 intervals to that variance). The limit is the coefficient of the exposure if the mean response is linear without constant, whatever the propensity; it is the adjusted effect if the propensity is logistic and within the overlap bounds, whatever the response.", "quantifier": "every distribution of units with finite moments, linearly independent regressors and a population logistic regression, every positive number of covariates, all block sizes from two on, every shuffling of the blocks, every min_unique_units >= 1, min_overlap in [1e-15, 1/2], penalty and delta", "why_tests_cant": "an almost sure limit, for all distributions; estimates biased by a wrong nuisance model look plausible", "anchors": ["causal_effect_bandits/parameters.py:AIPW.fit", "causal_effect_bandits/parameters.py:AIPW.transform", "causal_effect_bandits/parameters.py:AIPW._phi", "causal_effect_bandits/parameters.py:AIPWLinearLogistic.__init__", "causal_effect_bandits/arms.py:SampleSplittingArm.update", "causal_effect_bandits/data.py:ExpData.k_fold"]}
{"id": "C99", "title": "uniform sampling of consistent arms ends with the best arm", "statement": "A run of the uniform algorithm without a sample limit, whose arms have LinearRegressionParameters or AIPW parameters with their own covariates and costs and whose data source returns independent units, almost surely raises no exception and comes to an end if the best arm (cost times variance of the exact score) is better than the others by more than error_tol; and almost surely every answer given after sufficiently many rounds, whatever the tolerance and the sample limit, is the best arm alone.", "quantifier": "every distribution of units with finite moments, every number of arms from two on, all data transformers that select covariates, every state of the random generator, all costs, tolerances and limits", "why_tests_cant": "an almost sure statement on infinite executions of the whole program", "anchors": ["causal_effect_bandits/bandits.py:UniformAlgorithm.run", "causal_effect_bandits/bandits.py:BAIBanditAlgorithm._check_fixed_conf_end_condition", "causal_effect_bandits/bandits.py:BAIBanditAlgorithm.collect_bounds", "causal_effect_bandits/arms.py:SampleSplittingArm.update", "causal_effect_bandits/parameters.py:LinearRegressionParameter.fit", "causal_effect_bandits/parameters.py:AIPW.fit", "causal_effect_bandits/data.py:get_coordinate_mask_fn"]}
{"id": "C100", "title": "successive elimination of consistent arms ends", "statement": "A run of successive elimination without a sample limit, whose arms have LinearRegressionParameters or AIPW parameters with CLT intervals and their own covariates and positive costs and whose data source returns independent units, almost surely raises no exception and comes to an end if no two arms have the same cost times variance of the exact score, although arms are dropped at random times and the units that an arm sees depend on which other arms are left.", "quantifier": "every distribution of units with finite moments, every number of arms from two on, all data transformers that select covariates, every state of the random generator, all positive costs", "why_tests_cant": "an almost sure statement on infinite executions of the whole program; the order of the eliminations is random", "anchors": ["causal_effect_bandits/bandits.py:SuccessiveEliminationAlgorithm.run", "causal_effect_bandits/bandits.py:BAIBanditAlgorithm.collect_bounds", "causal_effect_bandits/arms.py:SampleSplittingArm.update", "causal_effect_bandits/parameters.py:LinearRegressionParameter.fit", "causal_effect_bandits/parameters.py:AIPW.fit", "causal_effect_bandits/data.py:get_coordinate_mask_fn"]}
{"id": "C101", "title": "the arms recover the effect of the back-door example", "statement": "Whatever parameters they draw, back_door_scm and frontdoor_scm return an SCM that generates data of any size, with parameters in the stated ranges. With probability one, run_single_arm with an arm with a LinearRegressionParameter or with AIPW on the data of back_door_scm returns, for all sufficiently large max_samples, an estimate as close as desired to the effect returned with the SCM, and a variance estimate and interval as close as desired to the asymptotic variance, which is below 6 for AIPW and above 6 for regression.", "quantifier": "every draw of the parameters, every number of samples per round from two on, every shuffling, every positive l_reg, penalty, and delta, CLT and CHI2", "why_tests_cant": "an almost sure limit of a randomised end-to-end computation; the tests compare one seed with a tolerance", "anchors": ["causal_effect_bandits/example_scm.py:back_door_scm", "causal_effect_bandits/example_scm.py:frontdoor_scm", "causal_effect_bandits/test_utils.py:run_single_arm", "causal_effect_bandits/scm.py:SCM.generate", "causal_effect_bandits/arms.py:SampleSplittingArm.update", "causal_effect_bandits/parameters.py:LinearRegressionParameter.fit", "causal_effect_bandits/parameters.py:AIPW.fit"]}
{"id": "C102", "title": "arms with a front-door parameter are consistent and recover the effect of the front-door example", "statement": "An arm with FrontDoorLinearFiniteZ that is updated again and again with blocks of a stream of independent units with binary exposure and one covariate of finite support never fails, and almost surely its estimates converge to mean and variance of the score that the code computes, with exact nuisance values (least-squares response regression, conditional probabilities within the smoothing bounds, clamped probability of exposure). On the data of frontdoor_scm, without the confounder, run_single_arm recovers the effect returned with the SCM.", "quantifier": "every distribution of units with finite moments, every finite support, all block sizes from two on, every shuffling of the blocks, every draw of the parameters of the SCM, all settings of the parameter in the stated ranges", "why_tests_cant": "an almost sure limit of a randomised end-to-end computation, for all distributions; a biased score gives plausible numbers", "anchors": ["causal_effect_bandits/parameters.py:FrontDoorLinearFiniteZ.fit", "causal_effect_bandits/parameters.py:FrontDoorLinearFiniteZ.calculate_score", "causal_effect_bandits/parameters.py:FrontDoorLinearFiniteZ._phi", "causal_effect_bandits/data.py:TabularCPD.fit", "causal_effect_bandits/arms.py:SampleSplittingArm.update", "causal_effect_bandits/example_scm.py:frontdoor_scm", "causal_effect_bandits/test_utils.py:run_single_arm"]}
{"id": "C103", "title": "what arms converge to in the front-door example depends on the covariates they are shown", "statement": "With probability one, on the data of frontdoor_scm, run_single_arm returns for all sufficiently large max_samples an estimate as close as desired to: the effect returned with the SCM, for AIPW without the mediator, although no line without intercept fits the responses; 0, for AIPW and LinearRegressionParameter with all covariates, because they then adjust for the mediator; and, for LinearRegressionParameter without the mediator, a value that exceeds the effect by more than 5/6 for all parameters that can be drawn, because its regression has no intercept.", "quantifier": "every draw of the parameters, every number of samples per round from two on, every shuffling, every positive l_reg, penalty and delta, CLT and CHI2", "why_tests_cant": "an almost sure limit of a randomised end-to-end computation; wrong adjustment sets give plausible numbers", "anchors": ["causal_effect_bandits/example_scm.py:frontdoor_scm", "causal_effect_bandits/test_utils.py:run_single_arm", "causal_effect_bandits/data.py:get_remove_coordinates_fn", "causal_effect_bandits/arms.py:SampleSplittingArm.update", "causal_effect_bandits/parameters.py:LinearRegressionParameter.fit", "causal_effect_bandits/parameters.py:AIPW.fit"]}
{"id": "C104", "title": "the project's tests of nuisance parameters pass for most but not all draws of the example", "statement": "With probability tending to one as the number of units grows, test_AIPWLinearLogistic passes, whatever parameters back_door_scm draws (unless beta is exactly 0), and test_frontdoorlinearfinitez passes if abs(alpha_2) times the mean of the confounder of unexposed units, and times one minus its mean over exposed units, is less than .2; with probability tending to one the latter test fails, although the parameter is fitted correctly, if one of these products is larger, which happens for draws of frontdoor_scm.", "quantifier": "every draw of the parameters of the SCMs, every ridge and logistic regression that meets its specification, every penalty", "why_tests_cant": "the tests run with one seed, for which they pass; what they accept for other draws is not visible", "anchors": ["causal_effect_bandits/parameters_test.py:EstimatorTest.test_frontdoorlinearfinitez", "causal_effect_bandits/parameters_test.py:EstimatorTest.test_AIPWLinearLogistic", "causal_effect_bandits/example_scm.py:frontdoor_scm", "causal_effect_bandits/example_scm.py:back_door_scm", "causal_effect_bandits/parameters.py:FrontDoorLinearFiniteZ.fit", "causal_effect_bandits/parameters.py:AIPW.fit", "causal_effect_bandits/parameters.py:AIPWLinearLogistic.get_response_parameters"]}
{"id": "C105", "title": "bandits on the data of the back-door example end and choose the AIPW arm", "statement": "Whatever parameters back_door_scm draws: with probability one, runs without a sample limit of the uniform algorithm and, with CLT intervals, of successive elimination on its data, with arms that have LinearRegressionParameters or AIPW parameters, raise no exception and end if the values (cost times asymptotic variance) of the arms differ by more than error_tol or are distinct, respectively. If one arm has AIPW, the others regression and none is cheaper, the uniform algorithm with error_tol 0 always ends almost surely, and every answer after sufficiently many rounds is the AIPW arm.", "quantifier": "every draw of the parameters, every number of arms from two on, every number of samples per round from two on, every shuffling, every positive l_reg and penalty, all costs, every error probability", "why_tests_cant": "an almost sure statement on infinite executions of the whole program, from the random numbers to the answer", "anchors": ["causal_effect_bandits/example_scm.py:back_door_scm", "causal_effect_bandits/scm.py:SCM.generate", "causal_effect_bandits/bandits.py:UniformAlgorithm.run", "causal_effect_bandits/bandits.py:SuccessiveEliminationAlgorithm.run", "causal_effect_bandits/arms.py:SampleSplittingArm.update", "causal_effect_bandits/parameters.py:LinearRegressionParameter.fit", "causal_effect_bandits/parameters.py:AIPW.fit"]}
{"id": "C106", "title": "what the project's tests of the example SCMs accept", "statement": "test_scm_back_door_statistics, which is not seeded, passes at most with probability 70000/n for n units (7 % for its 1000000) if the covariance term that var_y lacks exceeds the tolerance of the test by a margin, which happens for draws of back_door_scm; it passes at least with probability 4/5 if the term is below the tolerance by a margin and the mean response is at least 2; and the probability that it passes tends to 0 with the number of units unless the term is within the relative tolerance 1e-7. test_scm_frontdoor_statistics with 100000 units accepts any binary exposures, mediators and confounders as soon as some response is at least 9.", "quantifier": "every draw of the parameters of the SCMs, every number of units (the third and fourth theorem: 1000000, at most 100000), every dataset with binary exposures and covariates", "why_tests_cant": "the tests are unseeded: one run says nothing about the draws for which they fail, and a tolerance that makes an assertion empty is not visible in a passing test", "anchors": ["causal_effect_bandits/data_test.py:SCMTest.test_scm_back_door_statistics", "causal_effect_bandits/data_test.py:SCMTest.test_scm_frontdoor_statistics", "causal_effect_bandits/example_scm.py:back_door_scm", "causal_effect_bandits/example_scm.py:frontdoor_scm", "causal_effect_bandits/scm.py:SCM.generate"]}
{"id": "C107", "title": "the bandits with arms of constant estimates do what the project's tests of them expect", "statement": "With arms whose estimates are constant and whose intervals only depend on the number of units seen, a run of the uniform algorithm, of successive elimination and of LUCB on a data source that returns the units asked for has the histories, numbers of samples and best arms that the rules of the algorithm give: units for all arms, for the arms whose lower bounds have always been below the upper bound of the best arm, and for the best arm and the other arm with the lowest lower bound; until the first round in which the sample limit is exceeded or an arm is separated, or only one is left. test_uniform_bandit, test_successive_elimination_bandit and test_lucb_bandit pass, whatever SCM is drawn.", "quantifier": "every number of arms, all estimates, widths, tolerances, limits, numbers of units per round and rounds (LUCB: without ties), every state of the random generator", "why_tests_cant": "the tests check one choice of estimates, widths and limits for each algorithm", "anchors": ["causal_effect_bandits/bandits_test.py:BanditTest.test_uniform_bandit", "causal_effect_bandits/bandits_test.py:BanditTest.test_successive_elimination_bandit", "causal_effect_bandits/bandits_test.py:BanditTest.test_lucb_bandit", "causal_effect_bandits/bandits.py:UniformAlgorithm.run", "causal_effect_bandits/bandits.py:SuccessiveEliminationAlgorithm.run", "causal_effect_bandits/bandits.py:LUCBAlgorithm.run", "causal_effect_bandits/bandits.py:LUCBAlgorithm.select_arms"]}
{"id": "C108", "title": "what the project's test of the back-door arm accepts", "statement": "test_back_door_arm passes exactly if, among the 750 units of the first batch that the shuffle puts into the first fold, at least five are exposed and at least five are not, whatever the regressions return; otherwise an assertion fails. It fails with positive probability and passes with a probability of at least 1 - 10 * 0.8^150, for all parameters of the SCM. assert_array_less, with which it compares the lists of estimates, raises TypeError for a None, and accepts exactly lists of equal length with NaN beside NaN or a smaller number beside a larger one.", "quantifier": "every draw of the parameters of the SCM, all uniform and normal numbers (the normal numbers of the first batch distinct), every shuffling, every ridge and logistic regression that returns", "why_tests_cant": "the test fixes one seed; a test that checks bounds only cannot tell what it depends on", "anchors": ["causal_effect_bandits/arms_test.py:ArmTest.test_back_door_arm", "causal_effect_bandits/test_utils.py:run_single_arm", "causal_effect_bandits/arms.py:SampleSplittingArm.update", "causal_effect_bandits/parameters.py:AIPW.fit", "causal_effect_bandits/parameters.py:AIPW.calculate_score", "causal_effect_bandits/example_scm.py:back_door_scm"]}
{"id": "C109", "title": "what the assertions of the project's test of the front-door arm accept", "statement": "test_frontdoor_arm sets the nuisance parameters to values that it calls true and asserts that the variance of the scores of 50000 units is within 5 % of the variance estimate of the arm after 10000 units. The response that it sets is not the conditional mean of the response of the example. The assertion also accepts NaN beside NaN. For any numbers of units: if the variances of the scores with the two responses differ by more than 5 %, the assertion fails with a probability that tends to 1 with the number of units, once the arm has been run long enough; if they differ by less, it holds with a probability that tends to 1. The draws of frontdoor_scm of the first kind have positive probability. The later assertions hold exactly if at least five of the 750 units of the first batch in the first fold are exposed, at least five are not, and no variance estimate is 0; the test passes only then, so for all parameters it does not pass with a probability of at least (1/4)^750.", "quantifier": "every draw of the parameters of the SCM, every seed of the shuffles, every ridge regression with intercept that returns, every penalty; limits in the number of units; for the later assertions all random numbers, any number of units generated before and every regression that returns", "why_tests_cant": "the test fixes one seed; whether its tolerance covers the wrong nuisance values depends on the draw", "anchors": ["causal_effect_bandits/arms_test.py:ArmTest.test_frontdoor_arm", "causal_effect_bandits/test_utils.py:run_single_arm", "causal_effect_bandits/arms.py:SampleSplittingArm.update", "causal_effect_bandits/parameters.py:FrontDoorLinearFiniteZ.calculate_score", "causal_effect_bandits/parameters.py:FrontDoorLinearFiniteZ.fit", "causal_effect_bandits/example_scm.py:frontdoor_scm"]}
{"id": "C110", "title": "what the project's tests of ExpData.k_fold and TabularCPD.fit accept", "statement": "test_k_fold raises no exception, and it passes exactly if the shuffle of its second call puts the first and the last unit into the first fold, which 4 of the 24 shuffles do. test_fit passes in exact arithmetic: a table fitted on data in which a value of X occurs equally often with each of the at least two values of Z predicts the uniform law for this value.", "quantifier": "every shuffle of the two calls of k_fold, every dataset and every value of X that occurs equally often with each value of Z, every probability ratio from 1 on, every ordered field", "why_tests_cant": "the test of k_fold fixes one seed, so it does not show that its assertions fail for correct folds; the test of the table has one dataset", "anchors": ["causal_effect_bandits/data_test.py:ExpDataTest.test_k_fold", "causal_effect_bandits/data_test.py:TestTabularCPD.test_fit", "causal_effect_bandits/data.py:ExpData.k_fold", "causal_effect_bandits/data.py:TabularCPD.fit", "causal_effect_bandits/data.py:TabularCPD.predict"]}
{"id": "C111", "title": "an arm that is listed more than once is not declared best before the limit", "statement": "The list of arms of a bandit may contain an arm more than once. If updates leave the lower bound of an arm at most its upper bound and error_tol is not negative, an arm that UniformAlgorithm or LUCBAlgorithm declares best within the sample limit is listed once; without a sample limit, runs whose arms are all listed more than once never return. The histories of an arm have as many entries per round as the arm is listed. A list that successive elimination returns within its limit has at most one entry, and this arm is listed once.", "quantifier": "every list of arms, all intervals and estimates, every tolerance from 0 on, every data source, every number of rounds", "why_tests_cant": "runs that never return cannot be observed by tests, and all tests have distinct arms", "anchors": ["causal_effect_bandits/bandits.py:BAIBanditAlgorithm._check_fixed_conf_end_condition", "causal_effect_bandits/bandits.py:UniformAlgorithm.run", "causal_effect_bandits/bandits.py:LUCBAlgorithm.run", "causal_effect_bandits/bandits.py:SuccessiveEliminationAlgorithm.run"]}
{"id": "C112", "title": "arms whose cost is not positive", "statement": "Nothing requires the cost of an arm to be positive. While an arm of cost 0 has seen too few units, its cost-adjusted estimate and upper bound are 0 * inf, i.e. NaN. In this state Uniform and LUCB only end at the sample limit (provided no other estimate is NaN); if it is the first arm, they then return no arm at all, and successive elimination with at least two arms ends with a ValueError in its first round. With a negative cost the bounds change places: arms with the same cost, interval and estimate pass the stopping test if the interval times the absolute cost is longer than error_tol, and the first one is declared best.", "quantifier": "every list of distinct arms, all other costs, intervals and estimates, every data source, tolerance, limit and number of rounds", "why_tests_cant": "all tests have arms with positive costs", "anchors": ["causal_effect_bandits/arms.py:VarianceEstimatorArm.__init__", "causal_effect_bandits/bandits.py:BAIBanditAlgorithm.collect_bounds", "causal_effect_bandits/bandits.py:BAIBanditAlgorithm._check_fixed_conf_end_condition", "causal_effect_bandits/bandits.py:SuccessiveEliminationAlgorithm.run", "causal_effect_bandits/bandits.py:UniformAlgorithm.run", "causal_effect_bandits/bandits.py:LUCBAlgorithm.run"]}
