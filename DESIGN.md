# Formal model of deepmind/abcei_mab in Lean 4

Source: `/repo`, package `causal_effect_bandits`, read as text. No code was run. Every definition in
`lean/Verif/Model` cites the file and lines it models.

## Layout

| directory | content |
|---|---|
| `lean/Verif/Model` | the model of the Python code, one definition per function or per block of a long function |
| `lean/Verif/Spec` | the vocabulary of the theorem statements; uses the types of the model, not its functions, wherever the statement is about a function |
| `lean/Verif/Props` | the property theorems `Cnn_…`, each followed by an `example` that meets its hypotheses |
| `lean/Verif/Lemmas` | helper lemmas; nothing in here is a claim |
| `properties.jsonl` | the properties in words |
| `MANIFEST.json` | property → theorems, status, note |
| `seeded/LOG.jsonl` | wrong variants of the model, and the theorems that stop being provable |

Names: `Cnn_…_violated` proves that the code breaks the property (by a witness, or for a whole class of inputs);
`Cnn_…_partial` proves the property on part of its domain, its comment says what is missing. A property of the manifest is
`partial` as soon as one of its theorems has such a suffix.

## How the code is represented

* **Exceptions are values.** A function that may raise returns `Except PyErr _`. Methods that mutate `self` return the state
  reached *also when they raise* (`Py σ A = σ → Except PyErr A × σ`), since Python does not roll back.
* **Loops.** `for` loops are structural recursions. `while` loops take a fuel; `none` means "still running". Partial
  correctness theorems hold for every fuel; termination theorems give a sufficient fuel.
* **Numbers.** `Fl α` is NaN, −∞, +∞ or a finite element of an arbitrary ordered field `α` (ℚ in computed examples, ℝ where
  analysis is needed). Comparison with NaN, Python's `min`/`max` (order dependent under NaN), `np.argmin` (first NaN wins) and
  division by zero follow Python and NumPy. Finite arithmetic is exact: **rounding, overflow, underflow and signed zero are not
  modelled.**
* **Randomness** is an arbitrary world state `W` with arbitrary drawing functions. Theorems quantify over it, so they hold for
  every seed and every generator. Where a distribution matters (C65, C75, C88-C93, C97-C100), there is a probability measure on the numbers
  or on the worlds, and the statement says which; C89-C92 take the scores of the evaluated units as independent and
  identically distributed (C91: as close to such scores; C97-C100: the units are, and the scores come from the fitted parameter;
  in C99 and C100 the units are written on a tape, `Tape`, before the run, and the generator that shuffles does not depend on them). Permutations and masks are arbitrary arguments.
* **Objects.** Datasets are values. Arm objects live on a heap `I → S`, so that two entries of a list of arms can be one object.
* **External code** (sklearn estimators, Gaussian processes, `scipy.stats`, user-supplied CPDs, noise models, data generators
  and arms) is an arbitrary parameter. What a theorem assumes about it is one of its hypotheses.
* `PyErr.unmodelled` marks inputs the model does not cover. No theorem concludes it, and theorems that exclude it say so
  by a hypothesis on the input.

## Trusted base

1. The kernel of Lean 4.33.0, and Mathlib's statements as far as property statements mention them (reals, integrals, Gaussian and
   Gamma laws, matrices, `Finset` sums).
2. The axioms `propext`, `Classical.choice` and `Quot.sound`; the exact set for every property theorem is listed at the end.
   There is no axiom of our own, no `sorry`, no `native_decide` and no `bv_decide`.
   `decide +kernel` is used in computed witnesses; it is checked by the kernel.
3. The reading of the Python source: that each definition in `Model` says what the cited lines do, under the simplifications below.
   Nothing checks this mechanically.
4. The wording of the statements: that a theorem says what its property says.

## What is modelled

| file | modelled | not modelled |
|---|---|---|
| `data.py` | `ExpData` (`__init__`, `__len__`, `append`, `k_fold`, `subsample`, `__getitem__`), the three transformers, `LinearDataGenerator`, `TabularCPD` (`fit`, `predict`, `__str__`, supports) — `Model/Data`, `Model/DataItem`, `Model/LinearGen`, `Model/Tabular` | `ExpData.__str__`; `__getitem__` with keys other than integers, slices, lists of integers and masks; `DataGenerator.generate` (its `np.zeros(n, 1)` is a `TypeError` for every `n`) |
| `arms.py` | everything — `Model/Arms`, `Model/BanditArms` | |
| `bandits.py` | everything but the printed warning — `Model/Bandits` | |
| `parameters.py` | `LinearParameterBinaryTreatment`, `AIPW`, `FrontDoorLinearFiniteZ`, `LinearRegressionParameter`, with `set_to_truth` and the `Protocol` defaults — `Model/Parameters`, `Model/ParametersReal`, `Model/LinearGen` | the constructors of the three `AIPW` subclasses, which only choose sklearn estimators; `get_response_parameters` |
| `scm.py` | everything — `Model/SCM`, `Model/Cpds` | |
| `nonlinear_utils.py` | everything — `Model/Nonlinear`, `Model/PaperCpds` (`softmax`) | |
| `example_scm.py` | both functions, including the drawing of the parameters — `Model/ExampleScm`; the generated arrays as `ExpData` with integer and float cells — `Model/ExampleScm2` | rounding of the decimal constants; the algorithm behind `np.random.binomial` (inversion of one uniform number) |
| `paper_utils.py` | everything — `Model/PaperCpds`, `Model/Section5`, `Model/Paper`, `Model/PaperBandits` | |
| `test_utils.py` | everything — `Model/TestUtils`, `Model/LinearGen`, `Model/PaperCpds` | |
| `plotting_utils.py` | both functions, a figure being the list of lines, bands or surface arrays handed to matplotlib (`Model/Plotting.lean`) | colours, labels, legend, rendering |
| the notebook | the loops of cells 17, 20 and 23 (`Model/Experiments.lean`); the reported sample counts and the selection of the best arms (`Model/Plotting.lean`); its examples, resets and runs are those of `Model/PaperBandits.lean` | printing and box plots (cell 20 plots the undefined name `u_bandit_samples`), the other cells |
| `parameters_test.py` | both tests, as functions of the random generator and the number of units — `Model/ParametersTest` | `np.random.seed` |
| `data_test.py` | the two tests of `SCMTest`, as functions of the random generator and the number of units — `Model/DataTest`; `test_k_fold`, as a function of the two shuffles, and `test_fit` — `Model/DataTest2` | `np.random.seed` |
| `bandits_test.py` | `ConstantArm` and the three tests, as functions of the random generator and a bound on the number of rounds — `Model/BanditsTest` | names of arms; `ConstantArm.reset` (inherited, it would fail) |
| `arms_test.py` | `test_back_door_arm`, `test_frontdoor_arm` and the assertions about the lists that `run_single_arm` returns — `Model/ArmsTest` | `np.random.seed` |
| `setup.py` | nothing | everything |

## Simplifications

General
* Exact arithmetic, see above. In particular `np.linalg.det`, `inv` and `eig` are exact (`eig` returns the real roots of the
  characteristic polynomial), and `np.sqrt`, `np.log`, `norm.ppf`, `chi2.ppf` are the true real functions (`Model/RealLib`) in the
  theorems that depend on their values; other theorems allow any functions in their place.
* Names, messages and printed output of exceptions are dropped; only the class is kept (`LinAlgError` and `AxisError` are
  `ValueError`s).
* NumPy broadcasting of arrays of length one is modelled in `LinearDataGenerator.generate` only.

Data and arms
* Exposures and responses are 1-D, covariates 1-D or 2-D. Datasets are passed by value: the nuisance parameter keeps a reference to
  fold 0, which `append` later changes in place; that reference is read only in the `update` call that sets it.
* The nuisance parameter does not draw from the global generator.
* Cells of datasets are finite numbers, integers or floats (`Cell`), since `TabularCPD` uses their bytes as keys; an integer
  whose bytes spell a denormal float is not identified with it.
* In `get_coordinate_mask_fn` the bounds check is made also for an array without rows.

Nuisance parameters
* A regressor is a state with an arbitrary `fit` and an arbitrary row-wise `predict`; sklearn's checks of empty, 1-D and
  unequal-length input are modelled. Predictions are finite.
* Where the estimators matter (C98, C102), `Ridge(alpha, fit_intercept=False)`, `Ridge(alpha, fit_intercept=True)` and `LogisticRegression()` are assumed to return exact minimisers of
  their documented objectives (`Spec/Sklearn.lean`); the tolerance of the numerical solver, its iteration limit and warm starts are left out.
  Estimators that satisfy the assumption exist (`Lemmas/SklearnExists.lean`, `Lemmas/RidgeIntercept.lean`).
* `FrontDoorLinearFiniteZ` with 1-D covariates, `calculate_cs_width` with non-finite arguments, and `LinearRegressionParameter` when a
  1×1 matrix would be broadcast are unmodelled.

Bandits
* `units_per_round` is a natural number and the list of arms is not changed after construction.
* `np.random.choice` is an arbitrary choice among the admissible values.
* A bandit with arms of different classes or attributes is modelled by `ArmOps.family`; its probabilistic theorems (C93) take the
  convergence of the arms' scores to independent observations (`Arm.Follows`) as hypothesis.

SCMs, examples and the paper's constructions
* `np.random.binomial(1, q)` and `np.random.choice(p=p)` are computed by inversion of uniform numbers; the tolerance of NumPy's
  check that probabilities sum to one is not modelled.
* The Gaussian process regressor is deterministic in its integer `random_state`.
* In `generate_selection_masks` an empty index block is concatenated like any other (NumPy would turn the mask into floats, so a
  `V_i` or `Z_i` of dimension 0 makes the transformer raise); theorems that need it assume positive dimensions.
* A random function of zero-dimensional input is not modelled (C74, C75 assume positive dimensions).

## Mutation tests

`seeded/LOG.jsonl` has one line for each wrong variant of a definition. `theorems_failed` lists the declarations whose proofs break
first, `claims_no_longer_proved` the property theorems that depend on them. A broken helper lemma does not by itself show that a
*statement* has become false; for the variants marked in `theorems_tightened` the statements were strengthened until it did, and survivors
led to new theorems.

## What the properties say about the code

Properties that hold as stated: C01, C02, C03, C04, C06, C07, C12, C14, C15, C16, C19, C21, C23, C28, C31, C33, C34, C36, C38, C43, C45, C48, C50, C53, C58, C60, C62, C64, C68, C77, C82, C83, C85, C86, C87, C88, C89, C91, C97, C98, C99, C100, C101, C103, C104, C105, C106, C107, C108, C110, C111, C112.

Properties that the unchanged code does not satisfy, or that are proved for part of their domain:

| id | property | finding |
|---|---|---|
| C05 | append is atomic on failure | The code violates the claim: append extends cov before checking exp/rsp (data.py 71-78). The violation is proved with a witness; atomicity is proved for all failures other than a missing exposure/response. |
| C08 | coordinate transformers act row-wise | Proved for 2-D covariates. For 1-D covariates cov[..., idx] selects units (data.py 199-200), proved as a violation. |
| C09 | transformers commute with slicing and appending | Proved for 2-D covariates. False for 1-D covariates (witness proved), since the mask function then indexes units. |
| C10 | TabularCPD conditional probabilities sum to one | Exact row sums: 1 unless the row is degenerate, then 1+(m-2)*min_prob; the false case is proved as a violation. |
| C11 | TabularCPD probabilities respect the floor | Bounds on fitted probabilities; violations of the floor proved with witnesses. |
| C13 | TabularCPD refit forgets old data | Refitting without reset: violation and crash proved; partial for refits over the same support. |
| C17 | compute_treatment_effect leaves the model intact | compute_treatment_effect always raises AttributeError and loses the treatment CPD (self.deterministic_cpd does not exist); proved for every working model. Partial: nothing but the treatment CPD changes. |
| C18 | categorical_conditioning selects per unit | Partial for non-negative indices; negative index/category behaviour is a proved violation. |
| C20 | stable_splits=False re-splits all data | False: stable_splits=False drops all earlier data (arms.py 215-216); proved for every history. |
| C22 | confidence interval brackets the variance estimate | CLT proved over the reals with true normal quantiles. Finite-sample proved for max(g,8g^2) >= 1/4; NaN interval proved for a tiny sub_gscale. |
| C24 | reset returns the arm to its just-instantiated state | ci is (None,None) after reset (arms.py 96), proved violation; everything else and all later outcomes equal those of a new arm. |
| C25 | a failed update leaves the arm unchanged | False for every raising update with valid delta (the pull is counted first); partial for transformer failures. |
| C26 | finite-sample width behaves like a confidence width | Monotone and non-negative for max(g,8g^2) >= 1/4; limit proved for all scales; NaN width proved for a tiny scale. |
| C27 | CLT confidence sequence spends at most delta | Levels delta/k^2 sum to more than delta from the second update on (violation), at most delta*pi^2/6 (partial). The level actually used is proved to be delta/k^2. |
| C29 | bootstrap arm reports how much data it has seen | BootstrapArm inherits get_num_units() == 0 (arms.py 103-105); proved wrong for every non-empty history. |
| C30 | base arm default update | VarianceEstimatorArm.update assigns a read-only property (arms.py 91) and always raises. |
| C32 | sample accounting is exact | Proved for Uniform and SE. LUCB: exact when no round pulls one arm twice; violated otherwise (tied bounds). |
| C35 | early stopping implies separation | Proved when the last recorded lower bounds and estimates are not NaN; violated with NaN entries (witnesses). |
| C37 | error_tol relaxes the stopping rule | Violated: a larger error_tol makes stopping harder, overlapping intervals never stop, SE ignores it. |
| C39 | successive elimination returns at least one arm | Violated for degenerate intervals (both arms eliminated); proved when every lcb is strictly below its ucb. |
| C40 | successive elimination never returns an eliminated arm | Violated in the limit branch (an eliminated arm is returned); proved for runs ended within the limit. |
| C41 | LUCB pulls two distinct informative arms | Violated: tied bounds pull one arm twice; all-equal estimates raise ValueError in every state. Proved for pairwise distinct bounds. C41_ties: in general the arms are two successive draws of the generator, from all arms whose upper bound equals the largest one of the arms with the lowest estimate, and from all arms whose lower bound equals the lowest one of the others. |
| C42 | stable order replays the data identically for every arm | Proved for arms that count their units (SampleSplittingArm does); violated by BootstrapArm, which always reports zero units. |
| C44 | bandit constructor validation | Exact constructor condition; violated: LUCB/SE defaults raise TypeError, sample_limit=None makes every run raise, NaN limit is accepted. |
| C46 | NaN estimates never end the game | Violated for a NaN estimate that is not the first one; holds when the first arm's estimate is NaN. |
| C47 | a single-arm bandit returns its only arm | SE returns the arm; Uniform raises ValueError as soon as the interval is finite; LUCB always raises when the first round is within the limit. |
| C49 | AIPW scores are well defined and bounded | Exact formula and bound for every non-empty dataset; the claim fails for empty datasets, where a fitted parameter raises ValueError. |
| C51 | front-door score evaluates the documented formula | Exact formula for one covariate column after any history; violated for two or more columns (the middle term is dropped) and for float-coded exposures (P(z\|X=1) is read as 0). |
| C52 | front-door score is unbiased at the true nuisance | Violated: the documented f_3 uses P(z\|x') instead of P(z'\|x), so at the true nuisance the mean score is 2 tau - sum_z (P(z\|1)-P(z\|0)) f_3(z); concrete population with effect 2 and mean score 7/2. |
| C54 | binary linear parameter tolerates one-sided data | Violated: the first sklearn fit raises ValueError when there is no treated unit, and the base class has_enough_samples() is constantly False, so an arm with this parameter keeps the uninformative interval forever. The fit is characterised in all cases. |
| C55 | nuisance confidence widths are well defined | Exact linear algebra over the reals. Width characterised in all cases; NaN for singular second moments with min_overlap >= 1/2 (AIPW) or min_overlap = 1 (front-door), and AttributeError before the first fit. |
| C56 | front-door width accounts for the support size | Violated: the width depends on the data only through the number of units and the second moments; cov_given_exp_radius is computed and unused. |
| C57 | resetting a nuisance parameter forgets the fit | Proved for AIPW, LinearParameterBinaryTreatment and FrontDoorLinearFiniteZ; violated for LinearRegressionParameter, which has no reset of its own. |
| C59 | arms observe the covariates they are named after | Holds for the front-door arm (Z0 block). Violated for every back-door block of positive dimension: the covariate matrix is ordered Z0,V1,Z1,V2,... while the index blocks assume Z0,Z1,...,V1,.... With one path and one-dimensional variables the arms Z_1 and V_1 are exchanged on all generated data. |
| C61 | the secretary selection keeps a large effect | For every random stream the selection is characterised exactly (threshold = tenth candidate only; runs for ever if no later candidate reaches it) and the retained vectors are probability vectors. The claim fails: tau can be below an earlier candidate, and for a negative tenth candidate tau = 0 while the retained pair has a negative effect. |
| C63 | random functions have independent components | Violated for every out_dim, seed and kernel: the seed is drawn at most once, so all components are fitted to the same prior sample and the outputs are equal. The single-output case is right. |
| C65 | example SCM ground truth is exact | Expectations are integrals over independent uniform and normal numbers; the SCM model is shown to generate exactly such units. All means, the variances of the binary variables and the effects are exact; the variance of Y misses the cross term in both examples. |
| C66 | run_single_arm bookkeeping | For every arm, generator, limit and increment >= 1, exact characterisation of when it returns and of the five lists. The documented key 'ATE_estimates' is misspelt in the result, and increment 0 never ends. |
| C67 | set_to_truth gives the true scores | AIPW with a response model whose fit leaves intercept 0 (AIPWLinearLogistic): exact for every fitted history, and the variance formula. Violated: unfitted parameters return NaN after set_to_truth, a response model with an intercept keeps the stale one, and a gamma of the wrong length is refused after half of the parameter has been overwritten. LinearParameterBinaryTreatment: all scores tau once fitted. |
| C69 | data of the wrong dimension is refused | Proved for the three classes that check, and for LinearRegressionParameter with non-empty data and non-zero dimensions; violated by unfitted AIPW and binary linear parameters when scoring, and by empty data. |
| C70 | has_enough_samples holds exactly after a completed fit | Proved for AIPW and FrontDoor. LinearRegressionParameter ignores resets; LinearParameterBinaryTreatment is never ready. |
| C71 | LinearDataGenerator samples its linear model | The units are exactly those of the linear model, with the noise of the second call of noise_model. Violated: the array whose length is checked is not the one used, so a model that later returns a single number is accepted. |
| C72 | the CPD helpers compute the stated structural equations | Scalar and vector equations, scalar and vector noise, the logistic sampler.  Violated: superfluous coefficients are ignored silently (C72_extra_violated), and without parents logistic_linear_bernoulli_cpd returns a single number instead of one per unit (C72_no_parents_violated).  Broadcasting of arrays of length 1 is not modelled. |
| C73 | the Section 5.1 example samples its structural equations | Parameters and which random numbers they consist of, success of generate(n) for n >= 1, the structural equations, and the exact sequence of random numbers used.  Violated: n = 0 raises ValueError because Z0 has shape (0,) (C73_empty_violated); M = 0 raises (part of C73_parameters).  The parameter list of Y has one unused entry, computed from the strength of the last path (C73_parameter_draws). |
| C74 | the Section 5.2 example samples its structural equations | Exactly M + 1 dimensions in both lists, all positive, n >= 1, a regressor that predicts row by row: the SCM is accepted, generate(n) succeeds, and every unit solves the structural equations.  Violated: a surplus dimension, which Section 5.1 ignores, makes generate raise IndexError (C74_surplus_violated); n = 0 raises ValueError (C74_empty_violated). |
| C75 | the effect of the examples is the selected one | Section 5.1: both interventions from the same random numbers, the responses of each unit, and the mean difference as a Lebesgue integral; it equals the selected tau, or tau is 0 and the effect is not positive.  Violated for Section 5.2, where the response uses the random function f_ys[0] while tau was computed with beta_0 (C75_effect52_violated). |
| C76 | the seed determines the example | Section 5.1: result and generator state are a function of the seeded generator alone.  Violated for Section 5.2: the coefficient strengths come from NumPy's global generator (C76_seed52_violated). |
| C78 | a bandit run with reliable arms returns a result | Uniform and successive elimination: proved for all arms satisfying the interface contract Reliable (no exception on the data of the source, estimates not NaN). LUCB: the only possible exception is the ValueError of select_arms when all cost-adjusted estimates are equal (C78_lucb_partial), and it does occur when all arms agree after the first batch (C78_lucb_violated). Runs with a fixed dataset (all_data given) are the subject of C81. |
| C79 | an update of a sample-splitting arm does not raise | Proved for AIPW and front-door parameters with CLT intervals and with finite-sample intervals whose constants are in range. Assumptions: Ridge.fit accepts nonempty data, LogisticRegression.fit accepts data with both classes. Violated for batches of one unit: k_fold(2) files every unit in fold 0, and the first update with enough units raises ValueError. |
| C80 | the experiments of the paper do not raise | Construction and all uniform and elimination runs are proved; in Section 5.1 runs need the sub-Gaussian scale estimated at construction to be at least about 0.18 (WideScale). LUCB runs return unless all arms tie, in which case they raise ValueError; with at most 18 units per round this happens in every first LUCB run (C80_lucb_51_violated, C80_lucb_52_violated). sklearn estimators are assumed to accept nonempty data (with both classes for logistic regression). |
| C81 | runs on a fixed dataset do not raise | Uniform and successive elimination: proved for all arms that never fail on a full batch of the dataset (ReliableOn) and, without such an assumption, for the examples of Sections 5.1 (with WideScale) and 5.2 after any calls and a reset. LUCB returns unless all arms have the same cost-adjusted estimate; that it can fail then is shown in C78 and C80. sklearn is assumed to behave as in C77 (clone) and C80 (fit). |
| C84 | the best m arms are plotted | At most m arms, none worse than an arm left out, exactly m for distinct estimates. Violated with ties at the cutoff: the strict comparison then drops all tied arms, possibly every arm. IndexError if m is not below the number of arms. |
| C90 | finite-sample intervals have the stated coverage | Partial: the limit of the coverage is at least 1 - delta when the variance of the squared scores is at most 25/128 (sqrt(2g)+tau)^2. Violated: (1) the width grows like sqrt(g) although the standard deviation of the squared scores grows like g, so for sub-Gaussian scores with a large scale the coverage tends to less than 1/100 at delta = 1/10; (2) the width is of order 1/sqrt(n), without an iterated logarithm, so almost surely infinitely many intervals lie below the variance: the probability that all cover is zero (Kolmogorov's zero-one law). |
| C92 | CHI2 intervals have the stated coverage | Proved for scores with kurtosis at most 3 (with equality of the limit for kurtosis 3, as for normal scores); for every distribution with a larger kurtosis the limit is proved to be below 1 - delta. Simultaneous coverage of all updates has probability 0: the CHI2 branch, unlike the CLT branch, does not lower its level with the number of updates. The exact asymptotics use that standardised chi-square quantiles tend to normal ones, which is proved here. |
| C93 | runs without a sample limit end | Uniform: proved as stated. Successive elimination and LUCB: proved if all true values are different (LUCB: by more than error_tol, and without ties of bounds or estimates). Violated otherwise: a run of either may never end although the best arm is better than all others by far more than error_tol, when misleading early intervals drop or starve the best arm and the remaining arms are equally good; in the counterexamples every arm that is sampled for ever settles at its true value. With sample-splitting arms: almost surely, if the scores follow independent identically distributed observations and no exception is raised. Ties for the best: the run ends with probability at most error_prob, if the arms are honest (as in C88). |
| C94 | printing a TabularCPD shows the fitted table | Proved after predictions on the support; a prediction off the support inserts keys that x_values/z_values lack, so every later str() raises KeyError. |
| C95 | indexing a dataset selects units | Proved for slices, lists and masks. Violated for an integer: ExpData.__init__ takes the length of the row for n_units, or raises for 1-D covariates. |
| C96 | the notebook's experiments are isolated and complete | Model/Experiments.lean models cells 17, 20 and 23 of the notebook. Isolation (same counts and generator state from any two states of the arms that experiments can get to) and the shape of instance_history hold for every example that get_section_5_?_example can return (5.1: with a wide enough sub-Gaussian scale, see C80); the counts are plausible unless a LUCB run ends with the ValueError of C78 (all arms tie). Violated: cell 23 passes num_back_door_paths=3 whatever num_back_door is, so every pass with num_back_door >= 4 raises IndexError and the cell never completes; with num_back_door_paths=num_back_door it would. The theorems on a whole cell (C96_comparison_*) are about cells that complete; that an instance is accepted is shown for the abstract loop only. Not modelled: the plots (cell 20 ends with a NameError, it plots u_bandit_samples). C96_instance says what one pass does given the values of the arms; C96_values shows that in every example the arms have such values (NaN with fewer than five units of an exposure in the first half, in which case C96_clear_gap_nan shows the arm is ignored). |
| C102 | arms with a front-door parameter are consistent and recover the effect of the front-door example | Consistency is proved for every stream of independent units with finite covariate support; that run_single_arm recovers the effect of frontdoor_scm is false, and this is proved: the estimates converge almost surely to frontDoorArmLimit (C102_front_door_arm_violated), which for every draw differs from the returned effect by at least half of it (C102_error_violated), although the score of the paper has the effect as its mean (C102_paper_score); the cause is the last term of f_3 in _phi, which weights with P(z_i\|x) of the unit instead of P(a\|x_i) of the summand. Non-vacuity of the general theorems is shown by their use on frontdoor_scm. Assumes exact Ridge with intercept (Spec/Sklearn.lean). |
| C109 | what the assertions of the project's test of the front-door arm accept | Violated: parameters of positive probability make the first assertion fail for large numbers of units (a numerical estimate, not proved, is 3 % of the draws). The theorems on the first assertion are limits in both numbers of units; the rate for the 50000 and 10000 units of the test is not proved. C109_front_door_checks and C109_front_door_test are about the later assertions, with the numbers of the test; how often a variance estimate is 0 is not proved. Total is asked of the ridge regression also for rows of different lengths, which never occur. |

## Axioms of each property theorem

As printed by Lean (`#print axioms`), for the 401 theorems named `Cnn_…`.

### `propext` (6)

`ExpData.C05_append_atomic_partial`, `ExpData.C05_append_atomic_violated`, `ExpData.C09_coordMask_oneDim_violated`, `ExpData.C09_removeCoord_slice`, `C18_index_too_large`, `C18_negative_index_violated`

### `Quot.sound`, `propext` (58)

`ExpData.C02_kFold_one`, `ExpData.C03_kFold_validation`, `ExpData.C04_concat_unique`, `ExpData.C07_batches_tile`, `ExpData.C07_slice_all`, `ExpData.C07_slice_selects`, `ExpData.C07_slices_tile`, `Bandit.C111_successive_elimination`, `Tab.C12_predict_pure`, `SCM.C17_only_treatment_cpd_changes_partial`, `Arm.C19_logging_faithful`, `Arm.C21_invalid_delta`, `Arm.C21_invalid_delta_bootstrap`, `Arm.C21_valid_delta`, `Arm.C21_valid_delta_bootstrap`, `Arm.C24_reset_bootstrap_partial`, `Arm.C24_reset_ci_violated`, `Arm.C24_reset_partial`, `Arm.C25_failed_transform_partial`, `Arm.C25_failed_update_violated`, `Arm.C30_base_update_partial`, `Arm.C30_base_update_violated`, `Bandit.C31_uniform`, `Bandit.C33_uniform`, `Bandit.C37_se_ignores_tol_violated`, `Bandit.C42_log_faithful`, `Bandit.C42_same_sequence`, `Bandit.C42_stable_order`, `Bandit.C44_defaults_violated`, `Bandit.C44_no_limit_violated`, `Bandit.C44_run_partial`, `Bandit.C47_successive_elimination`, `AIPW.C49_empty_violated`, `AIPW.C49_unfitted`, `BinLin.C54_arm_never_informative_violated`, `BinLin.C54_fit_partial`, `AIPW.C57_aipw`, `BinLin.C57_binary`, `Paper.C58_no_paths`, `Nonlinear.C63_same_sample_violated`, `Nonlinear.C63_single_output_partial`, `TestUtils.C66_zero_increment_violated`, `BinLin.C67_binary_partial`, `BinLin.C67_binary_unfitted_violated`, `AIPW.C67_refused_violated`, `AIPW.C67_unfitted_violated`, `BinLin.C68_score`, `BinLin.C68_unfitted`, `C69_wrong_dimension_partial`, `BinLin.C70_binary_violated`, `LinGen.C71_gamma`, `Cpds.C72_equation_scalar`, `Cpds.C72_equation_vector`, `Cpds.C72_no_parents_violated`, `Cpds.C72_noise`, `Cpds.C72_transformed_refused`, `C77_bootstrap`, `ExpData.C95_step_zero`

### `Classical.choice`, `Quot.sound`, `propext` (337)

`ExpData.C01_kFold_partition`, `ExpData.C02_kFold_balanced`, `ExpData.C02_kFold_sizes`, `ExpData.C04_append_assoc`, `ExpData.C04_append_concat`, `ExpData.C06_subsample_partition`, `ExpData.C06_subsample_validation`, `ExpData.C08_coordMask_oneDim_violated`, `ExpData.C08_coordMask_partial`, `ExpData.C08_removeCoord_eq_mask`, `ExpData.C09_coordMask_append_partial`, `ExpData.C09_coordMask_slice_partial`, `ExpData.C09_removeCoord_append`, `AIPW.C100_consistent`, `LinReg.C100_consistent`, `Bandit.C100_ends`, `AIPW.C100_never_nan`, `LinReg.C100_never_nan`, `Example.C101_aipw`, `Example.C101_back_door_returns`, `Example.C101_comparison`, `Example.C101_front_door_returns`, `Example.C101_regression`, `FrontDoor.C102_consistent`, `Example.C102_error_violated`, `FrontDoor.C102_estimates_converge`, `Example.C102_front_door_arm_violated`, `FrontDoor.C102_intervals_converge`, `Example.C102_paper_score`, `FrontDoor.C102_updates_succeed`, `Example.C103_complete_aipw`, `Example.C103_complete_regression`, `Example.C103_confounder_aipw`, `Example.C103_confounder_regression`, `Example.C103_regression_error`, `ParametersTest.C104_aipw_passes`, `ParametersTest.C104_confounder_means`, `ParametersTest.C104_front_door_fails`, `ParametersTest.C104_front_door_passes`, `Example.C105_aipw_is_chosen`, `Example.C105_elimination_ends`, `Example.C105_uniform_answers`, `Example.C105_uniform_ends`, `DataTest.C106_back_door_fails`, `DataTest.C106_back_door_limit`, `DataTest.C106_back_door_passes`, `DataTest.C106_front_door_blind`, `DataTest.C106_front_door_vacuous`, `BanditsTest.C107_elimination_test`, `Bandit.C107_elimination_trace`, `BanditsTest.C107_lucb_test`, `Bandit.C107_lucb_trace`, `BanditsTest.C107_uniform_test`, `Bandit.C107_uniform_trace`, `ArmsTest.C108_assert_array_less`, `ArmsTest.C108_back_door_probability`, `ArmsTest.C108_back_door_test`, `ArmsTest.C109_assert_allclose`, `ArmsTest.C109_failing_draws_violated`, `ArmsTest.C109_front_door_checks`, `ArmsTest.C109_front_door_probability`, `ArmsTest.C109_front_door_test`, `ArmsTest.C109_front_door_variance`, `ArmsTest.C109_front_door_variance_violated`, `Tab.C10_rows_sum_partial`, `Tab.C10_rows_sum_violated`, `DataTest.C110_fit`, `DataTest.C110_k_fold`, `DataTest.C110_k_fold_shuffles`, `DataTest.C110_uniform`, `Bandit.C111_histories`, `Bandit.C111_listed_once`, `Bandit.C111_never`, `Bandit.C112_negative_cost`, `Bandit.C112_no_best`, `Bandit.C112_only_limit`, `Bandit.C112_successive_elimination`, `Tab.C11_floor_partial`, `Tab.C11_floor_ratio_ten_violated`, `Tab.C11_floor_violated`, `Tab.C12_zero_off_support`, `Tab.C13_refit_crash_violated`, `Tab.C13_refit_partial`, `Tab.C13_refit_violated`, `Tab.C14_exact_frequencies`, `Tab.C14_fit_outcome`, `Tab.C14_marginals`, `Tab.C14_order_independent`, `SCM.C15_generate_ordering`, `SCM.C15_generate_run`, `SCM.C15_unordered_never_generates`, `SCM.C16_constructor`, `SCM.C17_treatment_effect_violated`, `C18_conditioning_partial`, `C18_missing_category`, `Arm.C19_sample_splitting`, `Arm.C20_resplit_violated`, `Arm.C22_clt_interval`, `Arm.C22_finite_sample_partial`, `Arm.C22_finite_sample_violated`, `Arm.C23_burn_in`, `Arm.C23_burn_in_succeeds`, `Arm.C23_too_few_samples`, `Arm.C26_interval_uses_width`, `Arm.C26_width_monotone_partial`, `Arm.C26_width_tendsto`, `Arm.C26_width_violated`, `Arm.C27_level_used`, `Arm.C27_spending_partial`, `Arm.C27_spending_violated`, `Arm.C28_bootstrap_interval`, `Arm.C28_default_bootstraps`, `Arm.C28_no_index_error`, `Arm.C29_bootstrap_units_violated`, `Bandit.C31_lucb`, `Bandit.C31_successive_elimination`, `Bandit.C32_lucb_partial`, `Bandit.C32_lucb_violated`, `Bandit.C32_successive_elimination`, `Bandit.C32_uniform`, `Bandit.C33_lucb`, `Bandit.C33_successive_elimination`, `Bandit.C33_within_one_round`, `Bandit.C34_all`, `Bandit.C34_lucb`, `Bandit.C34_successive_elimination`, `Bandit.C34_uniform`, `Bandit.C34_zero_units`, `Bandit.C34_zero_units_never`, `Bandit.C35_lucb_partial`, `Bandit.C35_nan_violated`, `Bandit.C35_uniform_partial`, `Bandit.C36_lucb`, `Bandit.C36_successive_elimination`, `Bandit.C36_uniform`, `Bandit.C37_overlap_violated`, `Bandit.C37_tol_violated`, `Bandit.C38_eliminated_stay_eliminated`, `Bandit.C39_empty_violated`, `Bandit.C39_nonempty_partial`, `Bandit.C40_candidates_partial`, `Bandit.C40_eliminated_returned_violated`, `Bandit.C41_same_arm_violated`, `Bandit.C41_selection_partial`, `Bandit.C41_tied_estimates_violated`, `Bandit.C41_ties`, `Bandit.C42_bootstrap_violated`, `Bandit.C42_sample_splitting_counts`, `Bandit.C43_accepted`, `Bandit.C43_levels`, `Bandit.C44_constructor`, `Bandit.C44_nan_limit_violated`, `Bandit.C45_lucb`, `Bandit.C45_successive_elimination`, `Bandit.C45_uniform`, `Bandit.C46_first_arm_partial`, `Bandit.C46_nan_wins_violated`, `Bandit.C47_lucb_violated`, `Bandit.C47_uniform_partial`, `Bandit.C47_uniform_violated`, `AIPW.C48_fit`, `AIPW.C48_ready_iff`, `AIPW.C49_score`, `AIPW.C50_causal`, `AIPW.C50_doubly_robust`, `FrontDoor.C51_float_exposure_violated`, `FrontDoor.C51_multi_violated`, `FrontDoor.C51_one_feature_partial`, `FrontDoor.C52_mean_score_partial`, `FrontDoor.C52_violated`, `LinReg.C53_empty_fit`, `LinReg.C53_mean_score`, `LinReg.C53_unfitted`, `BinLin.C54_one_sided_violated`, `AIPW.C55_aipw`, `AIPW.C55_aipw_nan_violated`, `FrontDoor.C55_frontdoor`, `FrontDoor.C55_frontdoor_nan_violated`, `AIPW.C55_unfit_violated`, `FrontDoor.C56_support_ignored_violated`, `FrontDoor.C57_frontdoor`, `LinReg.C57_linreg_violated`, `Paper.C58_enumeration`, `Paper.C59_blocks_violated`, `Paper.C59_frontdoor_partial`, `Paper.C59_swapped_violated`, `Paper.C60_well_formed`, `Paper.C61_below_best_violated`, `Paper.C61_negative_violated`, `Paper.C61_retained_pmf`, `Paper.C61_selection_partial`, `Paper.C62_empty`, `Paper.C62_softmax`, `Nonlinear.C63_equal_outputs_violated`, `Nonlinear.C64_corners`, `Nonlinear.C64_grid`, `Example.C65_backdoor_moments_partial`, `Example.C65_backdoor_sampler`, `Example.C65_backdoor_variance_violated`, `Example.C65_frontdoor_moments_partial`, `Example.C65_frontdoor_sampler`, `Example.C65_frontdoor_variance_violated`, `TestUtils.C66_bookkeeping`, `TestUtils.C66_documented_key_violated`, `TestUtils.C66_total`, `AIPW.C67_aipw_partial`, `AIPW.C67_intercept_violated`, `BinLin.C67_variance_partial`, `AIPW.C67_variance_partial`, `C69_linreg_partial`, `C69_unchecked_violated`, `AIPW.C70_aipw`, `FrontDoor.C70_frontdoor`, `LinReg.C70_linreg_partial`, `LinGen.C71_check_violated`, `LinGen.C71_model`, `LinGen.C71_refused`, `Cpds.C72_extra_violated`, `Cpds.C72_logistic`, `Cpds.C72_normal_refused`, `Cpds.C72_normal_scalar`, `Cpds.C72_normal_vector`, `Cpds.C72_transformed`, `Section5.C73_empty_violated`, `Section5.C73_generates`, `Section5.C73_parameter_draws`, `Section5.C73_parameters`, `Section5.C73_support_draws`, `Section5.C74_empty_violated`, `Section5.C74_generates`, `Section5.C74_surplus_violated`, `Section5.C75_effect51`, `Section5.C75_effect52_violated`, `Section5.C76_seed51`, `Section5.C76_seed52_violated`, `PaperBandits.C77_paper`, `C77_sample_splitting`, `Bandit.C78_elimination`, `Bandit.C78_lucb_partial`, `Bandit.C78_lucb_violated`, `Bandit.C78_uniform`, `Arm.C79_aipw`, `Arm.C79_frontdoor`, `Arm.C79_single_violated`, `PaperBandits.C80_construction_51`, `PaperBandits.C80_construction_52`, `PaperBandits.C80_lucb_51_partial`, `PaperBandits.C80_lucb_51_violated`, `PaperBandits.C80_lucb_52_partial`, `PaperBandits.C80_lucb_52_violated`, `PaperBandits.C80_runs_51`, `PaperBandits.C80_runs_52`, `Bandit.C81_elimination`, `PaperBandits.C81_lucb_51_partial`, `PaperBandits.C81_lucb_52_partial`, `Bandit.C81_lucb_partial`, `PaperBandits.C81_runs_51`, `PaperBandits.C81_runs_52`, `Bandit.C81_uniform`, `Plotting.C82_plot`, `Plotting.C82_unknown_arm`, `Plotting.C83_matches_uniform`, `Plotting.C83_single_arm`, `Plotting.C83_uniform_count`, `Plotting.C84_ties_violated`, `Plotting.C84_too_many`, `Plotting.C84_top_arms`, `Plotting.C85_outputs`, `Plotting.C85_surface`, `Bandit.C86_best_sampled`, `Bandit.C86_lucb`, `Bandit.C86_successive_elimination`, `Bandit.C86_successive_elimination_ends`, `Bandit.C86_uniform`, `Bandit.C87_hypotheses_needed`, `Bandit.C87_progress`, `Bandit.C87_rounds`, `Bandit.C88_clt_error_probability`, `Bandit.C88_error_probability`, `Bandit.C88_success_probability`, `Arm.C89_clt_coverage`, `Arm.C90_finite_sample_coverage_partial`, `Arm.C90_level_violated`, `Arm.C90_sequence_violated`, `Arm.C91_chi2_interval_converges`, `Arm.C91_clt_interval_converges`, `Arm.C91_estimates_converge`, `Arm.C91_finite_sample_interval_converges`, `Arm.C92_chi2_coverage_partial`, `Arm.C92_level_violated`, `Arm.C92_sequence_violated`, `Bandit.C93_lucb_consistent_partial`, `Bandit.C93_lucb_partial`, `Bandit.C93_lucb_violated`, `Bandit.C93_successive_elimination_consistent_partial`, `Bandit.C93_successive_elimination_partial`, `Bandit.C93_successive_elimination_violated`, `Bandit.C93_ties`, `Bandit.C93_uniform`, `Bandit.C93_uniform_consistent`, `Tab.C94_str_partial`, `Tab.C94_str_violated`, `ExpData.C95_int_violated`, `ExpData.C95_list`, `ExpData.C95_mask`, `ExpData.C95_slice`, `ExpData.C95_slice_bounds`, `ExpData.C95_slice_unique`, `PaperBandits.C96_cell_violated`, `PaperBandits.C96_clear_gap`, `PaperBandits.C96_clear_gap_nan`, `PaperBandits.C96_comparison_51`, `PaperBandits.C96_comparison_52`, `PaperBandits.C96_gap_value`, `PaperBandits.C96_history`, `PaperBandits.C96_instance`, `PaperBandits.C96_isolated_51`, `PaperBandits.C96_isolated_52`, `PaperBandits.C96_repeats_51_partial`, `PaperBandits.C96_repeats_52_partial`, `PaperBandits.C96_scaling_intended_partial`, `PaperBandits.C96_scaling_violated`, `PaperBandits.C96_values`, `LinReg.C97_estimates_converge`, `LinReg.C97_intervals_converge`, `LinReg.C97_linear_model`, `LinReg.C97_no_intercept`, `LinReg.C97_updates_succeed`, `AIPW.C98_estimates_converge`, `AIPW.C98_intervals_converge`, `AIPW.C98_propensity_logistic`, `AIPW.C98_response_linear`, `AIPW.C98_updates_succeed`, `LinReg.C99_consistent`, `AIPW.C99_consistent`, `Bandit.C99_ends`, `Bandit.C99_late_answers`
