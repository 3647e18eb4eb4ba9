{"claims": [
 {"property": "C01", "status": "proved", "theorems": ["Verif.ExpData.C01_kFold_partition"], "note": "For all datasets, k and permutations."},
 {"property": "C02", "status": "proved", "theorems": ["Verif.ExpData.C02_kFold_sizes", "Verif.ExpData.C02_kFold_balanced", "Verif.ExpData.C02_kFold_one"], "note": "Exact sizes, balance, sum, and k_fold(1)."},
 {"property": "C03", "status": "proved", "theorems": ["Verif.ExpData.C03_kFold_validation"], "note": "Raises ValueError iff k < 1. The model is a pure function, so no mutation is by construction."},
 {"property": "C04", "status": "proved", "theorems": ["Verif.ExpData.C04_append_concat", "Verif.ExpData.C04_concat_unique", "Verif.ExpData.C04_append_assoc"], "note": "Success iff appendable; result is the unit-wise concatenation; uniqueness of the specification; associativity."},
 {"property": "C05", "status": "partial", "theorems": ["Verif.ExpData.C05_append_atomic_violated", "Verif.ExpData.C05_append_atomic_partial"], "note": "The code violates the claim: append extends cov before checking exp/rsp (data.py 71-78). The violation is proved with a witness; atomicity is proved for all failures other than a missing exposure/response."},
 {"property": "C06", "status": "proved", "theorems": ["Verif.ExpData.C06_subsample_partition", "Verif.ExpData.C06_subsample_validation"], "note": "For every mask and probability, including NaN."},
 {"property": "C07", "status": "proved", "theorems": ["Verif.ExpData.C07_slice_selects", "Verif.ExpData.C07_slices_tile", "Verif.ExpData.C07_slice_all", "Verif.ExpData.C07_batches_tile"], "note": "Slices with non-negative bounds."},
 {"property": "C08", "status": "partial", "theorems": ["Verif.ExpData.C08_coordMask_partial", "Verif.ExpData.C08_removeCoord_eq_mask", "Verif.ExpData.C08_coordMask_oneDim_violated"], "note": "Proved for 2-D covariates. For 1-D covariates cov[..., idx] selects units (data.py 199-200), proved as a violation."},
 {"property": "C09", "status": "partial", "theorems": ["Verif.ExpData.C09_coordMask_slice_partial", "Verif.ExpData.C09_coordMask_append_partial", "Verif.ExpData.C09_removeCoord_slice", "Verif.ExpData.C09_removeCoord_append", "Verif.ExpData.C09_coordMask_oneDim_violated"], "note": "Proved for 2-D covariates. False for 1-D covariates (witness proved), since the mask function then indexes units."},
 {"property": "C10", "status": "partial", "theorems": ["Verif.Tab.C10_rows_sum_partial", "Verif.Tab.C10_rows_sum_violated"], "note": "Exact row sums: 1 unless the row is degenerate, then 1+(m-2)*min_prob; the false case is proved as a violation."},
 {"property": "C11", "status": "partial", "theorems": ["Verif.Tab.C11_floor_partial", "Verif.Tab.C11_floor_violated", "Verif.Tab.C11_floor_ratio_ten_violated"], "note": "Bounds on fitted probabilities; violations of the floor proved with witnesses."},
 {"property": "C12", "status": "proved", "theorems": ["Verif.Tab.C12_predict_pure", "Verif.Tab.C12_zero_off_support"], "note": "predict is pure and returns 0 exactly off the seen values."},
 {"property": "C13", "status": "partial", "theorems": ["Verif.Tab.C13_refit_violated", "Verif.Tab.C13_refit_crash_violated", "Verif.Tab.C13_refit_partial"], "note": "Refitting without reset: violation and crash proved; partial for refits over the same support."},
 {"property": "C14", "status": "proved", "theorems": ["Verif.Tab.C14_fit_outcome", "Verif.Tab.C14_order_independent", "Verif.Tab.C14_marginals", "Verif.Tab.C14_exact_frequencies"], "note": "For all datasets: outcome, order independence, marginals and exact conditional frequencies."},
 {"property": "C15", "status": "proved", "theorems": ["Verif.SCM.C15_generate_run", "Verif.SCM.C15_generate_ordering", "Verif.SCM.C15_unordered_never_generates"], "note": "For all SCMs with duplicate-free variable lists and arbitrary CPDs; ordering characterised exactly for CPDs that do not raise."},
 {"property": "C16", "status": "proved", "theorems": ["Verif.SCM.C16_constructor"], "note": "Exact characterisation of the constructor."},
 {"property": "C17", "status": "partial", "theorems": ["Verif.SCM.C17_treatment_effect_violated", "Verif.SCM.C17_only_treatment_cpd_changes_partial"], "note": "compute_treatment_effect always raises AttributeError and loses the treatment CPD (self.deterministic_cpd does not exist); proved for every working model. Partial: nothing but the treatment CPD changes."},
 {"property": "C18", "status": "partial", "theorems": ["Verif.C18_conditioning_partial", "Verif.C18_index_too_large", "Verif.C18_missing_category", "Verif.C18_negative_index_violated"], "note": "Partial for non-negative indices; negative index/category behaviour is a proved violation."},
 {"property": "C19", "status": "proved", "theorems": ["Verif.Arm.C19_sample_splitting", "Verif.Arm.C19_logging_faithful"], "note": "For every history, split and nuisance parameter, by induction on the history; data calls are observed through a recording nuisance parameter, proved faithful."},
 {"property": "C20", "status": "partial", "theorems": ["Verif.Arm.C20_resplit_violated"], "note": "False: stable_splits=False drops all earlier data (arms.py 215-216); proved for every history."},
 {"property": "C21", "status": "proved", "theorems": ["Verif.Arm.C21_invalid_delta", "Verif.Arm.C21_invalid_delta_bootstrap", "Verif.Arm.C21_valid_delta", "Verif.Arm.C21_valid_delta_bootstrap"], "note": "Both arm classes."},
 {"property": "C22", "status": "partial", "theorems": ["Verif.Arm.C22_clt_interval", "Verif.Arm.C22_finite_sample_partial", "Verif.Arm.C22_finite_sample_violated"], "note": "CLT proved over the reals with true normal quantiles. Finite-sample proved for max(g,8g^2) >= 1/4; NaN interval proved for a tiny sub_gscale."},
 {"property": "C23", "status": "proved", "theorems": ["Verif.Arm.C23_too_few_samples", "Verif.Arm.C23_burn_in", "Verif.Arm.C23_burn_in_succeeds"], "note": "Too few samples, and burn-in (both that a successful update gives (0,inf) and that the update succeeds)."},
 {"property": "C24", "status": "partial", "theorems": ["Verif.Arm.C24_reset_ci_violated", "Verif.Arm.C24_reset_partial", "Verif.Arm.C24_reset_bootstrap_partial"], "note": "ci is (None,None) after reset (arms.py 96), proved violation; everything else and all later outcomes equal those of a new arm."},
 {"property": "C25", "status": "partial", "theorems": ["Verif.Arm.C25_failed_update_violated", "Verif.Arm.C25_failed_transform_partial"], "note": "False for every raising update with valid delta (the pull is counted first); partial for transformer failures."},
 {"property": "C26", "status": "partial", "theorems": ["Verif.Arm.C26_interval_uses_width", "Verif.Arm.C26_width_monotone_partial", "Verif.Arm.C26_width_tendsto", "Verif.Arm.C26_width_violated"], "note": "Monotone and non-negative for max(g,8g^2) >= 1/4; limit proved for all scales; NaN width proved for a tiny scale."},
 {"property": "C27", "status": "partial", "theorems": ["Verif.Arm.C27_level_used", "Verif.Arm.C27_spending_violated", "Verif.Arm.C27_spending_partial"], "note": "Levels delta/k^2 sum to more than delta from the second update on (violation), at most delta*pi^2/6 (partial). The level actually used is proved to be delta/k^2."},
 {"property": "C28", "status": "proved", "theorems": ["Verif.Arm.C28_bootstrap_interval", "Verif.Arm.C28_default_bootstraps", "Verif.Arm.C28_no_index_error"], "note": "Indices, order statistics, ordering and absence of IndexError, for every delta and B >= 1."},
 {"property": "C29", "status": "partial", "theorems": ["Verif.Arm.C29_bootstrap_units_violated"], "note": "BootstrapArm inherits get_num_units() == 0 (arms.py 103-105); proved wrong for every non-empty history."},
 {"property": "C30", "status": "partial", "theorems": ["Verif.Arm.C30_base_update_violated", "Verif.Arm.C30_base_update_partial"], "note": "VarianceEstimatorArm.update assigns a read-only property (arms.py 91) and always raises."},
 {"property": "C31", "status": "proved", "theorems": ["Verif.Bandit.C31_uniform", "Verif.Bandit.C31_lucb", "Verif.Bandit.C31_successive_elimination"], "note": "Arms are distinct objects (Nodup); histories are compared with the rounds that actually took place, for every successful run."},
 {"property": "C32", "status": "partial", "theorems": ["Verif.Bandit.C32_uniform", "Verif.Bandit.C32_successive_elimination", "Verif.Bandit.C32_lucb_partial", "Verif.Bandit.C32_lucb_violated"], "note": "Proved for Uniform and SE. LUCB: exact when no round pulls one arm twice; violated otherwise (tied bounds)."},
 {"property": "C33", "status": "proved", "theorems": ["Verif.Bandit.C33_uniform", "Verif.Bandit.C33_lucb", "Verif.Bandit.C33_successive_elimination", "Verif.Bandit.C33_within_one_round"], "note": "All recorded totals but the last are within the limit; the last exceeds it by at most one round."},
 {"property": "C34", "status": "proved", "theorems": ["Verif.Bandit.C34_uniform", "Verif.Bandit.C34_lucb", "Verif.Bandit.C34_successive_elimination", "Verif.Bandit.C34_all", "Verif.Bandit.C34_zero_units", "Verif.Bandit.C34_zero_units_never"], "note": "Runs never use more rounds than the limit allows, and an explicit number of rounds always suffices."},
 {"property": "C35", "status": "partial", "theorems": ["Verif.Bandit.C35_uniform_partial", "Verif.Bandit.C35_lucb_partial", "Verif.Bandit.C35_nan_violated"], "note": "Proved when the last recorded lower bounds and estimates are not NaN; violated with NaN entries (witnesses)."},
 {"property": "C36", "status": "proved", "theorems": ["Verif.Bandit.C36_uniform", "Verif.Bandit.C36_lucb", "Verif.Bandit.C36_successive_elimination"], "note": "Correct identification: valid final (SE: all) intervals imply the unique minimiser is returned."},
 {"property": "C37", "status": "partial", "theorems": ["Verif.Bandit.C37_tol_violated", "Verif.Bandit.C37_overlap_violated", "Verif.Bandit.C37_se_ignores_tol_violated"], "note": "Violated: a larger error_tol makes stopping harder, overlapping intervals never stop, SE ignores it."},
 {"property": "C38", "status": "proved", "theorems": ["Verif.Bandit.C38_eliminated_stay_eliminated"], "note": "SE only."},
 {"property": "C39", "status": "partial", "theorems": ["Verif.Bandit.C39_nonempty_partial", "Verif.Bandit.C39_empty_violated"], "note": "Violated for degenerate intervals (both arms eliminated); proved when every lcb is strictly below its ucb."},
 {"property": "C40", "status": "partial", "theorems": ["Verif.Bandit.C40_candidates_partial", "Verif.Bandit.C40_eliminated_returned_violated"], "note": "Violated in the limit branch (an eliminated arm is returned); proved for runs ended within the limit."},
 {"property": "C41", "status": "partial", "theorems": ["Verif.Bandit.C41_selection_partial", "Verif.Bandit.C41_same_arm_violated", "Verif.Bandit.C41_tied_estimates_violated", "Verif.Bandit.C41_ties"], "note": "Violated: tied bounds pull one arm twice; all-equal estimates raise ValueError in every state. Proved for pairwise distinct bounds. C41_ties: in general the arms are two successive draws of the generator, from all arms whose upper bound equals the largest one of the arms with the lowest estimate, and from all arms whose lower bound equals the lowest one of the others."},
 {"property": "C42", "status": "partial", "theorems": ["Verif.Bandit.C42_stable_order", "Verif.Bandit.C42_log_faithful", "Verif.Bandit.C42_same_sequence", "Verif.Bandit.C42_sample_splitting_counts", "Verif.Bandit.C42_bootstrap_violated"], "note": "Proved for arms that count their units (SampleSplittingArm does); violated by BootstrapArm, which always reports zero units."},
 {"property": "C43", "status": "proved", "theorems": ["Verif.Bandit.C43_levels", "Verif.Bandit.C43_accepted"], "note": "For every run of a constructed bandit, including runs that raise."},
 {"property": "C44", "status": "partial", "theorems": ["Verif.Bandit.C44_constructor", "Verif.Bandit.C44_defaults_violated", "Verif.Bandit.C44_no_limit_violated", "Verif.Bandit.C44_nan_limit_violated", "Verif.Bandit.C44_run_partial"], "note": "Exact constructor condition; violated: LUCB/SE defaults raise TypeError, sample_limit=None makes every run raise, NaN limit is accepted."},
 {"property": "C45", "status": "proved", "theorems": ["Verif.Bandit.C45_uniform", "Verif.Bandit.C45_lucb", "Verif.Bandit.C45_successive_elimination"], "note": "LUCB may also end by its confidence test after exceeding the limit, stated as a disjunction."},
 {"property": "C46", "status": "partial", "theorems": ["Verif.Bandit.C46_first_arm_partial", "Verif.Bandit.C46_nan_wins_violated"], "note": "Violated for a NaN estimate that is not the first one; holds when the first arm's estimate is NaN."},
 {"property": "C47", "status": "partial", "theorems": ["Verif.Bandit.C47_successive_elimination", "Verif.Bandit.C47_lucb_violated", "Verif.Bandit.C47_uniform_violated", "Verif.Bandit.C47_uniform_partial"], "note": "SE returns the arm; Uniform raises ValueError as soon as the interval is finite; LUCB always raises when the first round is within the limit."},
 {"property": "C48", "status": "proved", "theorems": ["Verif.AIPW.C48_ready_iff", "Verif.AIPW.C48_fit"], "note": "Any history of fits (any dataset with 2-D covariates and binary exposures) and resets; sklearn predictors abstract, may raise."},
 {"property": "C49", "status": "partial", "theorems": ["Verif.AIPW.C49_score", "Verif.AIPW.C49_empty_violated", "Verif.AIPW.C49_unfitted"], "note": "Exact formula and bound for every non-empty dataset; the claim fails for empty datasets, where a fitted parameter raises ValueError."},
 {"property": "C50", "status": "proved", "theorems": ["Verif.AIPW.C50_doubly_robust", "Verif.AIPW.C50_causal"], "note": "Weighted finite populations of any size over any ordered field; the score is the one computed by the modelled calculate_score; C50_causal links the adjusted effect to potential outcomes."},
 {"property": "C51", "status": "partial", "theorems": ["Verif.FrontDoor.C51_one_feature_partial", "Verif.FrontDoor.C51_multi_violated", "Verif.FrontDoor.C51_float_exposure_violated"], "note": "Exact formula for one covariate column after any history; violated for two or more columns (the middle term is dropped) and for float-coded exposures (P(z|X=1) is read as 0)."},
 {"property": "C52", "status": "partial", "theorems": ["Verif.FrontDoor.C52_mean_score_partial", "Verif.FrontDoor.C52_violated"], "note": "Violated: the documented f_3 uses P(z|x') instead of P(z'|x), so at the true nuisance the mean score is 2 tau - sum_z (P(z|1)-P(z|0)) f_3(z); concrete population with effect 2 and mean score 7/2."},
 {"property": "C53", "status": "proved", "theorems": ["Verif.LinReg.C53_mean_score", "Verif.LinReg.C53_empty_fit", "Verif.LinReg.C53_unfitted"], "note": "Any ordered field, any number of columns and units; the ridge coefficient is characterised as the unique minimiser of the ridge loss."},
 {"property": "C54", "status": "partial", "theorems": ["Verif.BinLin.C54_one_sided_violated", "Verif.BinLin.C54_fit_partial", "Verif.BinLin.C54_arm_never_informative_violated"], "note": "Violated: the first sklearn fit raises ValueError when there is no treated unit, and the base class has_enough_samples() is constantly False, so an arm with this parameter keeps the uninformative interval forever. The fit is characterised in all cases."},
 {"property": "C55", "status": "partial", "theorems": ["Verif.AIPW.C55_aipw", "Verif.AIPW.C55_aipw_nan_violated", "Verif.AIPW.C55_unfit_violated", "Verif.FrontDoor.C55_frontdoor", "Verif.FrontDoor.C55_frontdoor_nan_violated"], "note": "Exact linear algebra over the reals. Width characterised in all cases; NaN for singular second moments with min_overlap >= 1/2 (AIPW) or min_overlap = 1 (front-door), and AttributeError before the first fit."},
 {"property": "C56", "status": "partial", "theorems": ["Verif.FrontDoor.C56_support_ignored_violated"], "note": "Violated: the width depends on the data only through the number of units and the second moments; cov_given_exp_radius is computed and unused."},
 {"property": "C57", "status": "partial", "theorems": ["Verif.FrontDoor.C57_frontdoor", "Verif.LinReg.C57_linreg_violated", "Verif.AIPW.C57_aipw", "Verif.BinLin.C57_binary"], "note": "Proved for AIPW, LinearParameterBinaryTreatment and FrontDoorLinearFiniteZ; violated for LinearRegressionParameter, which has no reset of its own."},
 {"property": "C58", "status": "proved", "theorems": ["Verif.Paper.C58_enumeration", "Verif.Paper.C58_no_paths"], "note": "For every M >= 1 and every dimension vector long enough: the enumeration succeeds, yields the front-door arm followed by 2^M arms in bijection with the choice vectors, with distinct spelled names, summed costs and concatenated index blocks. M = 0 recurses without end in the code (C58_no_paths: the model reports recursionError)."},
 {"property": "C59", "status": "partial", "theorems": ["Verif.Paper.C59_frontdoor_partial", "Verif.Paper.C59_blocks_violated", "Verif.Paper.C59_swapped_violated"], "note": "Holds for the front-door arm (Z0 block). Violated for every back-door block of positive dimension: the covariate matrix is ordered Z0,V1,Z1,V2,... while the index blocks assume Z0,Z1,...,V1,.... With one path and one-dimensional variables the arms Z_1 and V_1 are exchanged on all generated data."},
 {"property": "C60", "status": "proved", "theorems": ["Verif.Paper.C60_well_formed"], "note": "For every M the SCM constructor accepts the graph and generate returns a sample whenever every CPD is total and returns n rows."},
 {"property": "C61", "status": "partial", "theorems": ["Verif.Paper.C61_selection_partial", "Verif.Paper.C61_retained_pmf", "Verif.Paper.C61_below_best_violated", "Verif.Paper.C61_negative_violated"], "note": "For every random stream the selection is characterised exactly (threshold = tenth candidate only; runs for ever if no later candidate reaches it) and the retained vectors are probability vectors. The claim fails: tau can be below an earlier candidate, and for a negative tenth candidate tau = 0 while the retained pair has a negative effect."},
 {"property": "C62", "status": "proved", "theorems": ["Verif.Paper.C62_softmax", "Verif.Paper.C62_empty"], "note": "Over the reals, for every non-empty vector: positive, sums to one, strictly order preserving, shift invariant, equal to the textbook softmax; the empty vector raises ValueError."},
 {"property": "C63", "status": "partial", "theorems": ["Verif.Nonlinear.C63_same_sample_violated", "Verif.Nonlinear.C63_equal_outputs_violated", "Verif.Nonlinear.C63_single_output_partial"], "note": "Violated for every out_dim, seed and kernel: the seed is drawn at most once, so all components are fitted to the same prior sample and the outputs are equal. The single-output case is right."},
 {"property": "C64", "status": "proved", "theorems": ["Verif.Nonlinear.C64_grid", "Verif.Nonlinear.C64_corners"], "note": "For every dimension, number of points and box: n^dim points, no repetition, exact membership, inside the box, and all corners when n >= 2."},
 {"property": "C65", "status": "partial", "theorems": ["Verif.Example.C65_backdoor_moments_partial", "Verif.Example.C65_backdoor_variance_violated", "Verif.Example.C65_frontdoor_moments_partial", "Verif.Example.C65_frontdoor_variance_violated", "Verif.Example.C65_backdoor_sampler", "Verif.Example.C65_frontdoor_sampler"], "note": "Expectations are integrals over independent uniform and normal numbers; the SCM model is shown to generate exactly such units. All means, the variances of the binary variables and the effects are exact; the variance of Y misses the cross term in both examples."},
 {"property": "C66", "status": "partial", "theorems": ["Verif.TestUtils.C66_bookkeeping", "Verif.TestUtils.C66_total", "Verif.TestUtils.C66_documented_key_violated", "Verif.TestUtils.C66_zero_increment_violated"], "note": "For every arm, generator, limit and increment >= 1, exact characterisation of when it returns and of the five lists. The documented key 'ATE_estimates' is misspelt in the result, and increment 0 never ends."},
 {"property": "C67", "status": "partial", "theorems": ["Verif.AIPW.C67_aipw_partial", "Verif.AIPW.C67_intercept_violated", "Verif.AIPW.C67_unfitted_violated", "Verif.AIPW.C67_refused_violated", "Verif.BinLin.C67_binary_partial", "Verif.BinLin.C67_binary_unfitted_violated", "Verif.AIPW.C67_variance_partial", "Verif.BinLin.C67_variance_partial"], "note": "AIPW with a response model whose fit leaves intercept 0 (AIPWLinearLogistic): exact for every fitted history, and the variance formula. Violated: unfitted parameters return NaN after set_to_truth, a response model with an intercept keeps the stale one, and a gamma of the wrong length is refused after half of the parameter has been overwritten. LinearParameterBinaryTreatment: all scores tau once fitted."},
 {"property": "C68", "status": "proved", "theorems": ["Verif.BinLin.C68_score", "Verif.BinLin.C68_unfitted"], "note": "Proved for every regressor that does not raise and every dataset with both groups; unfitted parameters give NaN."},
 {"property": "C69", "status": "partial", "theorems": ["Verif.C69_wrong_dimension_partial", "Verif.C69_linreg_partial", "Verif.C69_unchecked_violated"], "note": "Proved for the three classes that check, and for LinearRegressionParameter with non-empty data and non-zero dimensions; violated by unfitted AIPW and binary linear parameters when scoring, and by empty data."},
 {"property": "C70", "status": "partial", "theorems": ["Verif.FrontDoor.C70_frontdoor", "Verif.LinReg.C70_linreg_partial", "Verif.AIPW.C70_aipw", "Verif.BinLin.C70_binary_violated"], "note": "Proved for AIPW and FrontDoor. LinearRegressionParameter ignores resets; LinearParameterBinaryTreatment is never ready."},
 {"property": "C71", "status": "partial", "theorems": ["Verif.LinGen.C71_model", "Verif.LinGen.C71_check_violated", "Verif.LinGen.C71_refused", "Verif.LinGen.C71_gamma"], "note": "The units are exactly those of the linear model, with the noise of the second call of noise_model. Violated: the array whose length is checked is not the one used, so a model that later returns a single number is accepted."},
 {"property": "C72", "status": "partial", "theorems": ["Verif.Cpds.C72_normal_scalar", "Verif.Cpds.C72_normal_vector", "Verif.Cpds.C72_extra_violated", "Verif.Cpds.C72_normal_refused", "Verif.Cpds.C72_transformed", "Verif.Cpds.C72_transformed_refused", "Verif.Cpds.C72_equation_scalar", "Verif.Cpds.C72_equation_vector", "Verif.Cpds.C72_noise", "Verif.Cpds.C72_logistic", "Verif.Cpds.C72_no_parents_violated"], "note": "Scalar and vector equations, scalar and vector noise, the logistic sampler.  Violated: superfluous coefficients are ignored silently (C72_extra_violated), and without parents logistic_linear_bernoulli_cpd returns a single number instead of one per unit (C72_no_parents_violated).  Broadcasting of arrays of length 1 is not modelled."},
 {"property": "C73", "status": "partial", "theorems": ["Verif.Section5.C73_parameters", "Verif.Section5.C73_generates", "Verif.Section5.C73_empty_violated", "Verif.Section5.C73_parameter_draws", "Verif.Section5.C73_support_draws"], "note": "Parameters and which random numbers they consist of, success of generate(n) for n >= 1, the structural equations, and the exact sequence of random numbers used.  Violated: n = 0 raises ValueError because Z0 has shape (0,) (C73_empty_violated); M = 0 raises (part of C73_parameters).  The parameter list of Y has one unused entry, computed from the strength of the last path (C73_parameter_draws)."},
 {"property": "C74", "status": "partial", "theorems": ["Verif.Section5.C74_generates", "Verif.Section5.C74_surplus_violated", "Verif.Section5.C74_empty_violated"], "note": "Exactly M + 1 dimensions in both lists, all positive, n >= 1, a regressor that predicts row by row: the SCM is accepted, generate(n) succeeds, and every unit solves the structural equations.  Violated: a surplus dimension, which Section 5.1 ignores, makes generate raise IndexError (C74_surplus_violated); n = 0 raises ValueError (C74_empty_violated)."},
 {"property": "C75", "status": "partial", "theorems": ["Verif.Section5.C75_effect51", "Verif.Section5.C75_effect52_violated"], "note": "Section 5.1: both interventions from the same random numbers, the responses of each unit, and the mean difference as a Lebesgue integral; it equals the selected tau, or tau is 0 and the effect is not positive.  Violated for Section 5.2, where the response uses the random function f_ys[0] while tau was computed with beta_0 (C75_effect52_violated)."},
 {"property": "C76", "status": "partial", "theorems": ["Verif.Section5.C76_seed51", "Verif.Section5.C76_seed52_violated"], "note": "Section 5.1: result and generator state are a function of the seeded generator alone.  Violated for Section 5.2: the coefficient strengths come from NumPy's global generator (C76_seed52_violated)."},
 {"property": "C77", "status": "proved", "theorems": ["Verif.C77_sample_splitting", "Verif.C77_bootstrap", "Verif.PaperBandits.C77_paper"], "note": "For sample-splitting and bootstrap arms with a nuisance parameter whose reset() forgets what fit and calculate_score did; shown for AIPWLinearLogistic (with the laws of sklearn.clone), FrontDoorLinearFiniteZ and the arms of the paper. LinearRegressionParameter does not satisfy this (C57_linreg_violated)."},
 {"property": "C78", "status": "partial", "theorems": ["Verif.Bandit.C78_uniform", "Verif.Bandit.C78_elimination", "Verif.Bandit.C78_lucb_partial", "Verif.Bandit.C78_lucb_violated"], "note": "Uniform and successive elimination: proved for all arms satisfying the interface contract Reliable (no exception on the data of the source, estimates not NaN). LUCB: the only possible exception is the ValueError of select_arms when all cost-adjusted estimates are equal (C78_lucb_partial), and it does occur when all arms agree after the first batch (C78_lucb_violated). Runs with a fixed dataset (all_data given) are the subject of C81."},
 {"property": "C79", "status": "partial", "theorems": ["Verif.Arm.C79_aipw", "Verif.Arm.C79_frontdoor", "Verif.Arm.C79_single_violated"], "note": "Proved for AIPW and front-door parameters with CLT intervals and with finite-sample intervals whose constants are in range. Assumptions: Ridge.fit accepts nonempty data, LogisticRegression.fit accepts data with both classes. Violated for batches of one unit: k_fold(2) files every unit in fold 0, and the first update with enough units raises ValueError."},
 {"property": "C80", "status": "partial", "theorems": ["Verif.PaperBandits.C80_construction_51", "Verif.PaperBandits.C80_construction_52", "Verif.PaperBandits.C80_runs_51", "Verif.PaperBandits.C80_runs_52", "Verif.PaperBandits.C80_lucb_51_partial", "Verif.PaperBandits.C80_lucb_52_partial", "Verif.PaperBandits.C80_lucb_51_violated", "Verif.PaperBandits.C80_lucb_52_violated"], "note": "Construction and all uniform and elimination runs are proved; in Section 5.1 runs need the sub-Gaussian scale estimated at construction to be at least about 0.18 (WideScale). LUCB runs return unless all arms tie, in which case they raise ValueError; with at most 18 units per round this happens in every first LUCB run (C80_lucb_51_violated, C80_lucb_52_violated). sklearn estimators are assumed to accept nonempty data (with both classes for logistic regression)."},
 {"property": "C81", "status": "partial", "theorems": ["Verif.Bandit.C81_uniform", "Verif.Bandit.C81_elimination", "Verif.Bandit.C81_lucb_partial", "Verif.PaperBandits.C81_runs_51", "Verif.PaperBandits.C81_runs_52", "Verif.PaperBandits.C81_lucb_51_partial", "Verif.PaperBandits.C81_lucb_52_partial"], "note": "Uniform and successive elimination: proved for all arms that never fail on a full batch of the dataset (ReliableOn) and, without such an assumption, for the examples of Sections 5.1 (with WideScale) and 5.2 after any calls and a reset. LUCB returns unless all arms have the same cost-adjusted estimate; that it can fail then is shown in C78 and C80. sklearn is assumed to behave as in C77 (clone) and C80 (fit)."},
 {"property": "C82", "status": "proved", "theorems": ["Verif.Plotting.C82_plot", "Verif.Plotting.C82_unknown_arm"], "note": "Every returned run can be plotted for any of its arms and any number of ignored points; the points of a line belong to consecutive rounds, the abscissa counting the units of every update call. An unknown arm raises KeyError after the arms before it have been drawn."},
 {"property": "C83", "status": "proved", "theorems": ["Verif.Plotting.C83_uniform_count", "Verif.Plotting.C83_matches_uniform", "Verif.Plotting.C83_single_arm"], "note": "Counts: rounds * arms * units for uniform; equality with successive elimination exactly if every arm was sampled in every round. With at most one arm the notebook raises IndexError."},
 {"property": "C84", "status": "partial", "theorems": ["Verif.Plotting.C84_top_arms", "Verif.Plotting.C84_too_many", "Verif.Plotting.C84_ties_violated"], "note": "At most m arms, none worse than an arm left out, exactly m for distinct estimates. Violated with ties at the cutoff: the strict comparison then drops all tied arms, possibly every arm. IndexError if m is not below the number of arms."},
 {"property": "C85", "status": "proved", "theorems": ["Verif.Plotting.C85_surface", "Verif.Plotting.C85_outputs"], "note": "For every mesh size (100 in the code). The generated functions can be drawn exactly if they have one output."},
 {"property": "C86", "status": "proved", "theorems": ["Verif.Bandit.C86_uniform", "Verif.Bandit.C86_lucb", "Verif.Bandit.C86_successive_elimination", "Verif.Bandit.C86_successive_elimination_ends", "Verif.Bandit.C86_best_sampled"], "note": "Converse of C35/C36: when a run has to stop.  C86_uniform and C86_lucb: the round in which all intervals are narrow is the last one, whether by the stopping test or the limit, and the best arm is returned.  C86_successive_elimination: an arm worse by 3w gets no samples after the round, hence at most t + 1 batches in all; C86_successive_elimination_ends: the run ends when only the best arm is left; C86_best_sampled: the best arm is sampled in every round if all intervals are valid (so the hypothesis on b is met)."},
 {"property": "C87", "status": "proved", "theorems": ["Verif.Bandit.C87_progress", "Verif.Bandit.C87_rounds", "Verif.Bandit.C87_hypotheses_needed"], "note": "C87_progress is the step, C87_rounds the bound on the number of rounds and of samples.  C87_hypotheses_needed: with tied estimates, or with an infinite upper bound of an arm that is clearly worse, LUCB keeps pulling arms with narrow intervals until the sample limit."},
 {"property": "C88", "status": "proved", "theorems": ["Verif.Bandit.C88_error_probability", "Verif.Bandit.C88_clt_error_probability", "Verif.Bandit.C88_success_probability"], "note": "Honesty of the intervals is a hypothesis on the distribution of the runs (C27 gives the level each interval is computed with); the union over arms, the division of error_prob by the number of arms, the stopping rule and the returned arms are derived from the model. The factor pi^2/6 for CLT is the sum of 1/k^2 that the code does not normalise away."},
 {"property": "C89", "status": "proved", "theorems": ["Verif.Arm.C89_clt_coverage"], "note": "The central limit theorem and the consistency of the estimated variance of the squares are proved from Mathlib for the numbers that the model of update computes. That the scores of the units are independent and identically distributed is a hypothesis (it is the model of the data; the nuisance parameter is fitted on the other fold)."},
 {"property": "C90", "status": "partial", "theorems": ["Verif.Arm.C90_finite_sample_coverage_partial", "Verif.Arm.C90_level_violated", "Verif.Arm.C90_sequence_violated"], "note": "Partial: the limit of the coverage is at least 1 - delta when the variance of the squared scores is at most 25/128 (sqrt(2g)+tau)^2. Violated: (1) the width grows like sqrt(g) although the standard deviation of the squared scores grows like g, so for sub-Gaussian scores with a large scale the coverage tends to less than 1/100 at delta = 1/10; (2) the width is of order 1/sqrt(n), without an iterated logarithm, so almost surely infinitely many intervals lie below the variance: the probability that all cover is zero (Kolmogorov's zero-one law)."},
 {"property": "C91", "status": "proved", "theorems": ["Verif.Arm.C91_chi2_interval_converges", "Verif.Arm.C91_estimates_converge", "Verif.Arm.C91_clt_interval_converges", "Verif.Arm.C91_finite_sample_interval_converges"], "note": "The scores of the evaluated units are assumed to be uniformly within e_n of independent identically distributed observations, with e_n tending to 0; that the fitted nuisance parameters of the package achieve this is not proved. CLT: the number of updates is at most the number of evaluated units. Finite-sample: the nuisance width is assumed to tend to 0."},
 {"property": "C92", "status": "partial", "theorems": ["Verif.Arm.C92_chi2_coverage_partial", "Verif.Arm.C92_level_violated", "Verif.Arm.C92_sequence_violated"], "note": "Proved for scores with kurtosis at most 3 (with equality of the limit for kurtosis 3, as for normal scores); for every distribution with a larger kurtosis the limit is proved to be below 1 - delta. Simultaneous coverage of all updates has probability 0: the CHI2 branch, unlike the CLT branch, does not lower its level with the number of updates. The exact asymptotics use that standardised chi-square quantiles tend to normal ones, which is proved here."},
 {"property": "C93", "status": "partial", "theorems": ["Verif.Bandit.C93_uniform", "Verif.Bandit.C93_successive_elimination_partial", "Verif.Bandit.C93_lucb_partial", "Verif.Bandit.C93_uniform_consistent", "Verif.Bandit.C93_successive_elimination_consistent_partial", "Verif.Bandit.C93_lucb_consistent_partial", "Verif.Bandit.C93_ties", "Verif.Bandit.C93_lucb_violated", "Verif.Bandit.C93_successive_elimination_violated"], "note": "Uniform: proved as stated. Successive elimination and LUCB: proved if all true values are different (LUCB: by more than error_tol, and without ties of bounds or estimates). Violated otherwise: a run of either may never end although the best arm is better than all others by far more than error_tol, when misleading early intervals drop or starve the best arm and the remaining arms are equally good; in the counterexamples every arm that is sampled for ever settles at its true value. With sample-splitting arms: almost surely, if the scores follow independent identically distributed observations and no exception is raised. Ties for the best: the run ends with probability at most error_prob, if the arms are honest (as in C88)."},
 {"property": "C94", "status": "partial", "theorems": ["Verif.Tab.C94_str_partial", "Verif.Tab.C94_str_violated"], "note": "Proved after predictions on the support; a prediction off the support inserts keys that x_values/z_values lack, so every later str() raises KeyError."},
 {"property": "C95", "status": "partial", "theorems": ["Verif.ExpData.C95_slice", "Verif.ExpData.C95_slice_unique", "Verif.ExpData.C95_step_zero", "Verif.ExpData.C95_slice_bounds", "Verif.ExpData.C95_list", "Verif.ExpData.C95_mask", "Verif.ExpData.C95_int_violated"], "note": "Proved for slices, lists and masks. Violated for an integer: ExpData.__init__ takes the length of the row for n_units, or raises for 1-D covariates."},
 {"property": "C96", "status": "partial", "theorems": ["Verif.PaperBandits.C96_isolated_51", "Verif.PaperBandits.C96_isolated_52", "Verif.PaperBandits.C96_repeats_51_partial", "Verif.PaperBandits.C96_repeats_52_partial", "Verif.PaperBandits.C96_history", "Verif.PaperBandits.C96_comparison_51", "Verif.PaperBandits.C96_comparison_52", "Verif.PaperBandits.C96_scaling_violated", "Verif.PaperBandits.C96_cell_violated", "Verif.PaperBandits.C96_scaling_intended_partial", "Verif.PaperBandits.C96_clear_gap", "Verif.PaperBandits.C96_gap_value", "Verif.PaperBandits.C96_clear_gap_nan", "Verif.PaperBandits.C96_instance", "Verif.PaperBandits.C96_values"], "note": "Model/Experiments.lean models cells 17, 20 and 23 of the notebook. Isolation (same counts and generator state from any two states of the arms that experiments can get to) and the shape of instance_history hold for every example that get_section_5_?_example can return (5.1: with a wide enough sub-Gaussian scale, see C80); the counts are plausible unless a LUCB run ends with the ValueError of C78 (all arms tie). Violated: cell 23 passes num_back_door_paths=3 whatever num_back_door is, so every pass with num_back_door >= 4 raises IndexError and the cell never completes; with num_back_door_paths=num_back_door it would. The theorems on a whole cell (C96_comparison_*) are about cells that complete; that an instance is accepted is shown for the abstract loop only. Not modelled: the plots (cell 20 ends with a NameError, it plots u_bandit_samples). C96_instance says what one pass does given the values of the arms; C96_values shows that in every example the arms have such values (NaN with fewer than five units of an exposure in the first half, in which case C96_clear_gap_nan shows the arm is ignored)."},
 {"property": "C97", "status": "proved", "theorems": ["Verif.LinReg.C97_estimates_converge", "Verif.LinReg.C97_intervals_converge", "Verif.LinReg.C97_linear_model", "Verif.LinReg.C97_no_intercept", "Verif.LinReg.C97_updates_succeed"], "note": "C97_estimates_converge, C97_linear_model and C97_intervals_converge: folds are tracked through all updates of the modelled arm (k_fold shuffles by arbitrary permutations that do not depend on the units), the fitted matrix converges to the inverse second moments, the ridge penalty vanishes. C97_updates_succeed: no update fails. C97_no_intercept: without covariates the limit is the mean response of the exposed units, as the class fits no intercept. Finite-sample intervals are not covered here (C91 covers them for converging widths)."},
 {"property": "C98", "status": "proved", "theorems": ["Verif.AIPW.C98_estimates_converge", "Verif.AIPW.C98_intervals_converge", "Verif.AIPW.C98_response_linear", "Verif.AIPW.C98_propensity_logistic", "Verif.AIPW.C98_updates_succeed"], "note": "sklearn estimators are idealised as exact minimisers of their documented objectives (Spec/Sklearn.lean). The response model has no intercept, as in the code, so the response-linear case excludes a constant term unless a covariate provides it."},
 {"property": "C99", "status": "proved", "theorems": ["Verif.Bandit.C99_ends", "Verif.Bandit.C99_late_answers", "Verif.LinReg.C99_consistent", "Verif.AIPW.C99_consistent"], "note": "C99_ends and C99_late_answers are for any consistent arms; LinReg.C99_consistent and AIPW.C99_consistent provide them (CLT and CHI2 intervals; sklearn idealised as in C98). The units and the shuffling are independent: in the code both draw from the global generator of numpy. Only the uniform algorithm, whose arms all see the same units; LUCB and successive elimination choose the arms that get the next units, see C93 for them."},
 {"property": "C100", "status": "proved", "theorems": ["Verif.Bandit.C100_ends", "Verif.LinReg.C100_never_nan", "Verif.AIPW.C100_never_nan", "Verif.LinReg.C100_consistent", "Verif.AIPW.C100_consistent"], "note": "Bandit.C100_ends is for any family of arms whose updates run and whose estimates converge on every subsequence of the units (ConsistentOnParts) and never become NaN; LinReg.C100_consistent, LinReg.C100_never_nan, AIPW.C100_consistent and AIPW.C100_never_nan show that arms with linear regression and AIPW parameters and CLT intervals are such arms. The proof considers the countably many ways in which the candidate list can shrink, since a run chooses among them depending on the data. Nothing is said about which arm is returned (a good arm can be dropped by chance; C36 says what is returned when all intervals hold). With CHI2 intervals the first interval can be NaN (one evaluated unit, no degree of freedom); with the finite-sample intervals convergence is not proved."},
 {"property": "C101", "status": "proved", "theorems": ["Verif.Example.C101_back_door_returns", "Verif.Example.C101_front_door_returns", "Verif.Example.C101_regression", "Verif.Example.C101_aipw", "Verif.Example.C101_comparison"], "note": "The uniform and normal numbers are independent random variables; the three numbers that give the parameters are arbitrary. The generator that shuffles is a separate stream. Exact arithmetic; the covariates are those of back_door_scm without a mask. For frontdoor_scm only totality, ranges and shape are proved."},
 {"property": "C102", "status": "partial", "theorems": ["Verif.Example.C102_error_violated", "Verif.Example.C102_front_door_arm_violated", "Verif.Example.C102_paper_score", "Verif.FrontDoor.C102_estimates_converge", "Verif.FrontDoor.C102_intervals_converge", "Verif.FrontDoor.C102_updates_succeed", "Verif.FrontDoor.C102_consistent"], "note": "Consistency is proved for every stream of independent units with finite covariate support; that run_single_arm recovers the effect of frontdoor_scm is false, and this is proved: the estimates converge almost surely to frontDoorArmLimit (C102_front_door_arm_violated), which for every draw differs from the returned effect by at least half of it (C102_error_violated), although the score of the paper has the effect as its mean (C102_paper_score); the cause is the last term of f_3 in _phi, which weights with P(z_i|x) of the unit instead of P(a|x_i) of the summand. Non-vacuity of the general theorems is shown by their use on frontdoor_scm. Assumes exact Ridge with intercept (Spec/Sklearn.lean)."},
 {"property": "C103", "status": "proved", "theorems": ["Verif.Example.C103_confounder_aipw", "Verif.Example.C103_complete_aipw", "Verif.Example.C103_complete_regression", "Verif.Example.C103_confounder_regression", "Verif.Example.C103_regression_error"], "note": "The variance in the limit is the variance of the exact score; it is not computed in closed form. AIPW with ideal ridge and logistic regression as in C98; propensities clipped at most at 1/4 for the arm without the mediator."},
 {"property": "C104", "status": "proved", "theorems": ["Verif.ParametersTest.C104_front_door_passes", "Verif.ParametersTest.C104_front_door_fails", "Verif.ParametersTest.C104_aipw_passes", "Verif.ParametersTest.C104_confounder_means"], "note": "C104_front_door_passes and C104_front_door_fails are for given parameters of the SCM (the first five uniform numbers); the latter shows that the tolerance .2 of test_frontdoorlinearfinitez is too small for some draws, because the test compares the fitted responses with alpha_2 * u at the ends and not with alpha_2 times the conditional mean of u. C104_aipw_passes excludes beta = 0, for which assert_allclose demands exact equality. C104_confounder_means justifies the names exposedMean and unexposedMean. The seed of the tests is not modelled; the statements are limits in probability."},
 {"property": "C105", "status": "proved", "theorems": ["Verif.Example.C105_uniform_ends", "Verif.Example.C105_uniform_answers", "Verif.Example.C105_elimination_ends", "Verif.Example.C105_aipw_is_chosen"], "note": "Combines C65, C99, C100 and C101: the random numbers of back_door_scm, of the generated data and of the shuffles are one sequence of independent numbers; a simulation shows that the program run on them does the same as on a tape of independent units. Distinct values are assumed except in C105_aipw_is_chosen, where they follow from C101_comparison. LUCB is not covered."},
 {"property": "C106", "status": "proved", "theorems": ["Verif.DataTest.C106_back_door_fails", "Verif.DataTest.C106_back_door_limit", "Verif.DataTest.C106_back_door_passes", "Verif.DataTest.C106_front_door_vacuous", "Verif.DataTest.C106_front_door_blind"], "note": "A statement about the test-suite: `var_y` of `back_door_scm` lacks `2 Cov(10 X, beta Z)` (C65), and the tolerance of the test, about `2 E[Y^2] / sqrt(n)` times `var_y`, hides this for some draws but not for others, e.g. p = 1/2, beta = 2.9, alpha = -.3, for which the unseeded test fails with probability at least 93 %. Chebyshev bounds, so that the probabilities are not sharp. The tolerances of the front-door test, 4 times the largest response squared over sqrt(n), are at least 1 if some response is at least 9 and n <= 100000."},
 {"property": "C107", "status": "proved", "theorems": ["Verif.Bandit.C107_uniform_trace", "Verif.Bandit.C107_elimination_trace", "Verif.Bandit.C107_lucb_trace", "Verif.BanditsTest.C107_uniform_test", "Verif.BanditsTest.C107_elimination_test", "Verif.BanditsTest.C107_lucb_test"], "note": "Both endings of the uniform and elimination runs are covered. Elimination is for arms with a common width function (as in the test); LUCB for runs without ties of the bounds that select arms. The best arm of the LUCB run is unique by hypothesis. The tests compare exact numbers in the model; in floating point the tie that eliminates the third arm of the elimination test holds because sqrt(20)/sqrt(20) is exactly 1."},
 {"property": "C108", "status": "proved", "theorems": ["Verif.ArmsTest.C108_back_door_test", "Verif.ArmsTest.C108_back_door_probability", "Verif.ArmsTest.C108_assert_array_less"], "note": "The failure has positive probability because 1500 units may all be exposed. If the normal numbers of the first batch coincide, which has probability zero, scores can be constant and the test fails, too (not stated). For test_frontdoor_arm see C109."},
 {"property": "C109", "status": "partial", "theorems": ["Verif.ArmsTest.C109_front_door_variance_violated", "Verif.ArmsTest.C109_front_door_variance", "Verif.ArmsTest.C109_failing_draws_violated", "Verif.ArmsTest.C109_assert_allclose", "Verif.ArmsTest.C109_front_door_checks", "Verif.ArmsTest.C109_front_door_test", "Verif.ArmsTest.C109_front_door_probability"], "note": "Violated: parameters of positive probability make the first assertion fail for large numbers of units (a numerical estimate, not proved, is 3 % of the draws). The theorems on the first assertion are limits in both numbers of units; the rate for the 50000 and 10000 units of the test is not proved. C109_front_door_checks and C109_front_door_test are about the later assertions, with the numbers of the test; how often a variance estimate is 0 is not proved. Total is asked of the ridge regression also for rows of different lengths, which never occur."},
 {"property": "C110", "status": "proved", "theorems": ["Verif.DataTest.C110_k_fold", "Verif.DataTest.C110_k_fold_shuffles", "Verif.DataTest.C110_uniform", "Verif.DataTest.C110_fit"], "note": "Proved. C110_k_fold states exactly for which shuffles test_k_fold passes, C110_k_fold_shuffles counts them; C110_uniform is the general statement behind test_fit, C110_fit the test. np.random.seed is not modelled (the shuffles are arguments) and arithmetic is exact."},
 {"property": "C111", "status": "proved", "theorems": ["Verif.Bandit.C111_listed_once", "Verif.Bandit.C111_never", "Verif.Bandit.C111_histories", "Verif.Bandit.C111_successive_elimination"], "note": "No assumption on the list of arms; for Uniform and LUCB the hypothesis that updates keep intervals in order is what C22 and C28 state for the arms of the project (costs not negative). The example shows runs with a repeated arm that end, never end, and end at the limit."},
 {"property": "C112", "status": "proved", "theorems": ["Verif.Bandit.C112_no_best", "Verif.Bandit.C112_only_limit", "Verif.Bandit.C112_successive_elimination", "Verif.Bandit.C112_negative_cost"], "note": "States what the code does, including the ValueError and the empty result, which are undesirable; the state of an arm that has seen too few units (interval (0, inf), estimate inf) is the one of C23."}
]}
