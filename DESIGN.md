# Design of the formal model of pyuoi

Subject: the Python package `pyuoi` (Union of Intersections estimators) and the
bundled C library `liblbfgs`, read as text from `/repo`.  Nothing of it is run.
Properties are listed in `properties.jsonl`; each is stated in terms of the API.

## 1. Layout of the Lean project

* `Verif/Py/*`     – Python/NumPy/MPI primitives the code relies on (exceptions as
  values, `array_split`, `squeeze`, `unique(axis=0)`, `argmax`, `median`, `reshape`,
  boolean-mask assignment, blocking collectives).
* `Verif/Model/*`  – the code that exists, function by function, branch by branch.
  Every definition has a doc comment citing file and lines and naming the
  simplifications.
* `Verif/Spec/*`   – small independent specifications (what a user expects), not
  using the model's helpers.
* `Verif/Lemmas/*` – helper lemmas.
* `Verif/Props/*`  – the property theorems (`C01_…`), each with a concrete
  non-trivial `example` meeting its hypotheses.

Style: shallow, total, computable functions.  Exceptions are values
(`Except PyErr α`).  Arrays are `List`s or functions `Fin n → K`; the scalar type is a linearly
ordered field `K` for algebraic facts (examples computed in `ℚ`) and `ℝ` where
`exp`, `log`, `sqrt` or derivatives are needed.

## 2. Trusted base

* The Lean 4 kernel; Mathlib; axioms `propext`, `Classical.choice`, `Quot.sound`
  only (`#print axioms` was run on every theorem of the manifest: a few, such as the table
  comparisons C72, C77 and C82, use none or only `propext`; the combinatorial ones such as C36–C38
  use `propext` and `Quot.sound`; all others use the three).  No axioms of our own, no `sorry`, no
  `native_decide`, no `bv_decide`.
* The hand translation from Python/Cython/C to Lean (comments cite the lines).
* Real/rational arithmetic instead of IEEE doubles, except where special values
  matter: (a) the product `f * n_boots` of the threshold conversion goes through an
  abstract rounding function (monotone, exact on integers) and NaN/±inf are
  explicit; (b) the `*= 0.` reset between bootstraps uses an extended scalar with
  NaN and ±inf; (c) the all-zero Poisson response gives an explicit `-inf`; (d) CUR draws and NMF
  dissimilarities use an extended scalar; (e) the NaN witness of C66 uses rationals with NaN and ±inf
  (`Py/Float.lean`).  Elsewhere a division by zero has Lean's value 0 instead of NaN or inf, so theorems
  either exclude it or the definition's comment says so.
* Ghost fields: the L-BFGS state carries the lists of evaluated and reported points; they influence
  nothing.  The C loop `for (;;)` is a relation `Lbfgs` between inputs and outcomes (all finite
  unfoldings), so statements hold for every run that ends, and C67 proves that limited runs end.
* External routines are parameters, constrained only by hypotheses stated in the
  theorem: `train_test_split` (returns a split or raises), `StandardScaler`
  (mean/scale, scale nonzero), sklearn/pycasso/scipy solvers (any state
  transformer), the clustering and NMF solvers, `nnls`, the SVD, the random
  generators (streams), the HDF5 file (two arrays or an error), the Python objective passed
  to L-BFGS (any function).
* MPI: blocking collectives on one communicator, executed in lock step; a world is
  stuck when a process waits in a collective that another process never enters or
  enters with a different kind/root.  Network faults and buffers aliasing are not
  modelled.

Not modelled at all: logging output formatting, sparse-matrix storage (treated as
the dense matrix it denotes), `copy_X`, thread pools inside BLAS/sklearn, the single-precision
SSE code of liblbfgs (the double-precision one is C140), memory allocation failure, NCCL/GPU, documentation examples, `setup.py`.

## 3. Per property: what is modelled and how it is proved

The statements are in `properties.jsonl`. `model` names files under `Verif/Model` (or `Verif/Py`).
A theorem ending in `_partial` covers part of the statement and the remark says what is missing; a
theorem with `negation` in its name proves that the statement is false of the code, by a witness or
for a whole class of inputs.

| id | status | model | method | theorems | remark |
|----|--------|-------|--------|----------|--------|
| C01 | proved | Thresholds | case analysis on the input classes; specification `Spec/Thresholds` relates input and outcome; float product through an abstract rounding | `C01_thresholds_exact`, `C01_error_kind`, `C01_one_is_all`, `C01_infinite` | Float arithmetic is a parameter (FloatSem); Sane says in-range products round monotonically. |
| C02 | partial | Thresholds | same; witness: the empty list | `C02_negation`, `C02_nonempty_partial` | False: an empty list/array is accepted and yields no threshold. Partial: every other accepted value yields at least one. |
| C03 | partial | Intersection | membership, sortedness and uniqueness of `np.unique`; witnesses for one row and one feature | `C03_intersection_partial`, `C03_negation`, `C03_single_pair` | False when there is a single (threshold, parameter) pair or a single feature, because of squeeze before unique. Partial covers all other shapes; C03_single_pair says what a single pair gives. |
| C04 | partial | Intersection | shape of the squeezed array; witnesses | `C04_negation`, `C04_negation_feature`, `C04_shape_partial` | Same defect as C03. |
| C05 | proved | Intersection | counting lemmas | `C05_monotone`, `C05_monotone_output`, `C05_default_is_intersection` |  |
| C06 | partial | Intersection | index arithmetic of reshape and OR over classes; witness for a single pair | `C06_union_over_classes_partial`, `C06_separate_partial`, `C06_negation` | Holds with at least two (threshold, parameter) pairs; single-pair witness raises ValueError. Without shared supports the candidates are per coefficient. |
| C07 | proved | Py/ArraySplit, Fit | prefix sums of `np.array_split` | `C07_concat`, `C07_exactly_once`, `C07_contiguous`, `C07_balanced`, `C07_pairs`, `C07_used` | np.array_split and the task lists of both phases. |
| C08 | proved | Fit, MpiUtils, Py/Mpi | lock-step execution of all processes compared with the serial program; induction over bootstraps and tasks | `C08_distributed_eq_serial` | Solver, scoring and data are parameters; GoodIntercept says that the fitted intercept is a well-formed non-0-d float array. |
| C09 | partial | same | same for solvers without history; concrete world of three processes as witness | `C09_distributed_eq_serial_partial`, `C09_negation` | False for warm-starting solvers when there are more processes than selection bootstraps (witness with 3 processes). Partial: any number of processes for solvers without history. |
| C10 | proved | same | consequence of the execution theorem | `C10_all_processes_agree` | Any number of processes, any solver. |
| C11 | proved | same | all schedules of blocking collectives; measure decreasing along every schedule | `C11_no_deadlock`, `C11_every_schedule_same_outcome` | All schedules of blocking collectives; no schedule is infinite, none is stuck unless a process raised. |
| C12 | partial | same | every world of two or more processes with a failing split is stuck | `C12_negation`, `C12_serial_partial` | False for every number of processes >= 2: process 0 raises, the others wait for ever. Partial: the serial fit raises. |
| C13 | proved | Fit | index lemmas for `np.tile` and mask assignment | `C13_estimates_of_candidates`, `C13_zero_outside_support` | any number of processes; zero outside a per-coefficient support additionally uses that the masked solver returns zeros (C47) |
| C14 | proved | Fit, Py/Reduce | order statistics of sorted lists | `C14_coef_is_median`, `C14_between_extremes`, `C14_majority_zero` | statements are about coef_ before undoing standardization |
| C15 | proved | Fit, Py/Reduce | induction for `argmax` | `C15_chosen_is_first_maximum` |  |
| C16 | partial | WarmStart | solver state machine over scalars with NaN and infinities; witness with minus infinity | `C16_bootstrap_local_partial`, `C16_poisson_partial`, `C16_negation`, `C16_start_units` | false when a bootstrap has an all-zero Poisson response: -inf * 0. is NaN; proved for solvers whose reachable states stay finite |
| C17 | proved | Data, Fit | non-interference by congruence | `C17_selection`, `C17_estimates`, `C17_scores` |  |
| C18 | partial | Scaling, Estimator, Logistic | algebra; witness for the classifier | `C18_linear_partial`, `C18_poisson_partial`, `C18_negation` | Proved for the linear and Poisson estimators; false for the classifier with an intercept (log_loss raises ValueError on a single label), witnessed by C18_negation. Over the reals, at least one row. |
| C19 | partial | Estimator | object state machine from arbitrary objects; witness | `C19_attributes_partial`, `C19_constant_partial`, `C19_negation` | False after a constant response: supports_ and scores_ of the earlier fit remain. Proved from arbitrary objects for non-constant responses with a grid of their own; coefficients and intercept always. |
| C20 | partial | Estimator, Grid | same; witnesses | `C20_lasso_partial`, `C20_first_fit_partial`, `C20_negation`, `C20_negation_grids` | Holds for the Lasso after every history and for every first fit; false for the elastic-net, logistic and Poisson estimators, whose first grid is kept. |
| C21 | partial | Estimator | induction over draws; witness for NumPy integers | `C21_python_int_partial`, `C21_ranks_partial`, `C21_negation` | Holds for Python integers; with a NumPy integer all splits of a phase are copies. |
| C22 | partial | Grid | list lemmas, `logspace` over the reals, optimality conditions at zero | `C22_elastic_net_grid_partial`, `C22_largest_lambda_is_critical`, `C22_negation`, `C22_lasso_partial` | Layout, strict decrease and criticality proved for at least two lambdas; with n_lambdas=1 the only value is eps times the largest useful one. |
| C23 | proved | Scaling | field algebra | `C23_linear_predictions` | All combinations of flags under which scaling is undone; one response column. |
| C24 | partial | Scaling | field algebra, exact condition; witness | `C24_negation`, `C24_intercept_partial`, `C24_no_intercept_partial` | False with an intercept: the correction has the wrong sign and factor. Exact condition proved; holds without intercept. |
| C25 | partial | Scaling | field algebra and exp; witness | `C25_intercept_partial`, `C25_negation` | Holds with an intercept, including an intercept of minus infinity; false without one because the scaler always centres. |
| C26 | proved | Scaling | the standardised data do not change | `C26_units` | Any deterministic selection/estimation algorithm; features constant in training must be constant at the new point too. |
| C27 | proved | Scaling | algebra; convexity of exp | `C27_linear`, `C27_poisson`, `C27_poisson_no_features` | Residuals sum to zero and least squares; Poisson mean match and maximum likelihood, including the all-zero response. |
| C28 | partial | Scores | constructor tables; witness | `C28_negation`, `C28_arguments_partial` | The Poisson constructor drops standardize (negation); the other arguments are forwarded. |
| C29 | partial | Scores, Utils | real algebra; witness | `C29_prefers_likelihood`, `C29_prefers_small_support_partial`, `C29_negation`, `C29_aicc_correction`, `C29_score_is_negated_criterion` | Higher likelihood preferred always; smaller support preferred for AIC, BIC and AICc away from n<=k+1; false for AICc there. |
| C30 | proved | Utils | real analysis (log x ≤ x − 1) | `C30_profile_likelihood` |  |
| C31 | proved | Utils | same | `C31_poisson_likelihood`, `C31_truth_is_best`, `C31_zero_prediction`, `C31_models` |  |
| C32 | partial | Scores | decision tables; witness | `C32_negation`, `C32_accepted_can_be_scored_partial`, `C32_targets` | UoI_Poisson accepts acc and cannot score it. |
| C33 | proved | Utils | real analysis | `C33_softmax_distribution` |  |
| C34 | proved | Utils | real analysis | `C34_sigmoid_logistic` |  |
| C35 | partial | Utils | state machine over constructions; decimal digits | `C35_negation`, `C35_names_partial` | Every construction adds a handler, so messages multiply (negation); names are distinct per rank. |
| C36 | partial | MpiUtils | symbolic execution for all sizes; witnesses with root 1 | `C36_bcast_partial`, `C36_unsupported`, `C36_negation`, `C36_negation_arrays`, `C36_invalid_hangs`, `C36_invalid` | False for root other than 0 (the buffer is rebuilt on rank != 0); partial: root 0. |
| C37 | partial | MpiUtils | same | `C37_gatherv_partial`, `C37_negation` | False for root other than 0; partial: root 0, any row counts. |
| C38 | proved | MpiUtils | same | `C38_load_data`, `C38_unsupported` | Any root, any number of processes. |
| C39 | proved | Poisson | convexity, case analysis | `C39_unique_minimiser`, `C39_shape` | real arithmetic |
| C40 | proved | Poisson | minimisation in one coordinate, induction over the sweep | `C40_coordinate_minimises`, `C40_sweep_decreases` | the denominator must be positive (a nonzero entry in the feature or a ridge penalty), else NumPy divides by zero |
| C41 | proved | Poisson | subgradients and convexity | `C41_fixed_points_optimal`, `C41_active_fixed_points` | real arithmetic; the second theorem is the version for the shortened sweeps of later iterations |
| C42 | partial | Poisson | invariant of the active set; witness | `C42_partial`, `C42_negation`, `C42_negation_witness` | false: with warm_start, zero coefficients stay zero for all data, and a nonzero start raises ValueError with two samples or more |
| C43 | proved | Poisson | `HasDerivAt` | `C43_value`, `C43_gradient`, `C43_gradient_no_intercept` | all sample weights and L2 penalties |
| C44 | proved | Grid, Poisson | subgradients at zero | `C44_largest_lambda_is_critical`, `C44_largest_lambda_no_intercept`, `C44_grid` | Global optimality of the zero model iff lambda is at least the largest grid value; with and without intercept. |
| C45 | partial | Poisson | object with attributes; witness | `C45_partial`, `C45_negation` | false without an intercept: predict_mean raises NotFittedError, or uses the intercept of an earlier constant fit |
| C46 | proved | Logistic | `HasDerivAt`; reshape and transpose lemmas | `C46_binary_value`, `C46_binary_gradient`, `C46_binary_gradient_no_intercept`, `C46_multinomial_value`, `C46_multinomial_gradient`, `C46_multinomial_gradient_no_intercept`, `C46_regrouped`, `C46_restricted` | Value and gradient, binary and multinomial, with and without intercept, with mask; and that regrouping and restricting to the unmasked entries keep the gradient exact. |
| C47 | proved | Logistic | index lemmas of gather and scatter | `C47_masked_zero`, `C47_l1` | Without L1 penalty for an arbitrary optimiser; with L1 penalty for the library's own optimiser, as modelled in Lbfgs and LbfgsPy. |
| C48 | proved | Logistic | real algebra | `C48_binary`, `C48_multinomial` |  |
| C49 | partial | Logistic, Grid | optimality conditions at zero; witnesses | `C49_multinomial`, `C49_binary_partial`, `C49_negation`, `C49_negation_no_intercept` | True for multinomial problems with an intercept; for every binary problem with centred features the largest penalty is too small by the factor one minus the frequency of class one; without an intercept the last feature is ignored. |
| C50 | partial | Logistic | state machine over progress reports; witness | `C50_partial`, `C50_stops`, `C50_negation` | True with an intercept; false without one because the last coefficient is not looked at. |
| C51 | partial | Cur | lists over streams of draws; witness with an infinite c | `C51_valid`, `C51_drawn`, `C51_monotone`, `C51_sorted`, `C51_infinite_negation`, `C51_nonpositive` | Proved for finite c; with an infinite c (which UoI_CUR accepts) columns of zero leverage are selected too, and with minus infinity exactly those. |
| C52 | partial | Cur | witness | `C52_partial`, `C52_negation` | False: random_state is ignored and an unseeded generator is used. |
| C53 | proved | Cur | counting lemmas | `C53_stable`, `C53_monotone`, `C53_threshold` |  |
| C54 | partial | Cur | shape lemmas; witness | `C54_partial`, `C54_negation`, `C54_plain`, `C54_plain_ok` | True when a column was selected (and always for the ordinary CUR); false for an empty selection with more than one sample. |
| C55 | partial | Cur | case analysis; witness | `C55_partial`, `C55_errors`, `C55_negation` | Exact acceptance condition for all arguments except arrays of ranks with several axes, which are accepted and make fit fail later. |
| C56 | partial | Cur | generator state threading; witness for every seed | `C56_partial`, `C56_negation` | False for every integer seed: all bootstraps are identical; true for generator objects and the global generator. |
| C57 | partial | Nmf | list lemmas; witness | `C57_partial`, `C57_nonneg`, `C57_methods`, `C57_unit`, `C57_negation` | Components are the normalised consensus of the members of each cluster for contiguous labels (DBSCAN); nonnegative for every clustering. False for clusterers with other negative labels: a zero row appears. |
| C58 | proved | Nmf | Cauchy–Schwarz, reindexing of finite sums | `C58_range`, `C58_symmetric`, `C58_identical`, `C58_rescaled`, `C58_permuted` | Over the reals, for all numbers of bases and features. |
| C59 | partial | Nmf | `argmin` by induction; witness with NaN | `C59_partial`, `C59_undefined`, `C59_one_bootstrap`, `C59_negation` | All finite dissimilarity tables. With undefined ones the first rank that has one is chosen (negation); with one bootstrap the first rank. |
| C60 | partial | Nmf | constructor and attribute tables; witnesses | `C60_partial`, `C60_negation`, `C60_negation_set_params` | False: ranks=None fails on fit, get_params and set_params always raise AttributeError. Proved: with ranks given the fit succeeds when the solvers do. |
| C61 | partial | Nmf | list lemmas; witness for integers | `C61_partial`, `C61_unfitted`, `C61_negation` | Float data; integer data truncate the weights. Before fit an AttributeError (not NotFittedError) is raised. |
| C62 | proved | Datasets | permutation lemmas over an abstract generator | `C62_regression`, `C62_count`, `C62_supplied`, `C62_no_intercept`, `C62_classification` | The random generator is any state transformer whose shuffle and permutation permute. |
| C63 | proved | Lbfgs | ordered-field case analysis; convexity | `C63_min_norm`, `C63_zero_iff`, `C63_minimiser`, `C63_necessary` | Every ordered field; minimality of zero pseudo-gradient for convex objectives, necessity over the reals for differentiable ones. |
| C64 | proved | Lbfgs | projection lemma, invariant over trials | `C64_orthant` | All trial points of the penalised line search. |
| C65 | partial | Lbfgs | invariants of the three line searches; witness | `C65_backtracking`, `C65_owlqn_partial`, `C65_owlqn_negation`, `C65_morethuente` | Proved for backtracking and More-Thuente. Penalised problems: sufficient decrease only; false for 'wolfe' there (curvature never checked). |
| C66 | partial | Lbfgs, LbfgsPy | invariant of the main loop over reachable states; witnesses | `C66_partial`, `C66_last`, `C66_fmin_partial`, `C66_negation`, `C66_nan` | Proved without penalty, with all variables penalised, or for convex objectives with ftol < 1; the result is always the last accepted point. False in general: an unpenalised variable of a non-convex objective (C66_negation), and NaN values accepted by the backtracking search (C66_nan). |
| C67 | partial | Lbfgs, LbfgsPy | counting invariant; `Lbfgs` is the graph of the unbounded loop, and every limited run has an outcome | `C67_limits`, `C67_ends`, `C67_warning_partial`, `C67_negation` | The limits, the ending of every run and the warning are proved for all objectives; the point returned at the limit is the last one, which is the best one under the conditions of C66_partial and not in general (C67_negation). |
| C68 | proved | Lbfgs | ring-buffer invariant over reachable states | `C68_memory` |  |
| C69 | proved | Lbfgs | the recursive BFGS matrix as specification; induction over the corrections | `C69_product`, `C69_secant`, `C69_positive`, `C69_descent` |  |
| C70 | partial | LbfgsPy | tables; witnesses | `C70_partial`, `C70_warnings`, `C70_negation` | Progress values must be error codes and the delta-based stop must be off. False: the delta-based stop and progress value 1 raise KeyError, progress value 2 returns the point as if converged. |
| C71 | partial | Lbfgs, LbfgsPy | exact characterisation of the check; witnesses | `C71_code_partial`, `C71_accepted_partial`, `C71_before`, `C71_owlqn`, `C71_negation` | Exact characterisation of the accepted parameters, errors before any evaluation. False of the documented ranges: orthantwise_start=N, ftol>=0.5, m=0 are accepted. |
| C72 | proved | LbfgsPy | both enumerations transcribed and compared | `C72_agree`, `C72_distinct`, `C72_messages`, `C72_texts`, `C72_model` | Both enumerations and the descriptions in the header transcribed. |
| C73 | partial | Fit | exact characterisation of the completed fits; witness | `C73_negation`, `C73_completed_partial` | false: length-one axes are squeezed away; what completes is characterised |
| C74 | proved | Scaling | algebra of scalers | `C74_response_units` |  |
| C75 | partial | Poisson | first sweep computed symbolically; optimality conditions | `C75_partial`, `C75_negation` | false: for every data set with mean response other than one, a cold coordinate-descent fit at or above the critical penalty stops after one sweep with intercept mean(y)-1, which is not optimal |
| C76 | partial | Logistic | real algebra | `C76_partial`, `C76_negation` | False: the early stop zeroes the intercept too; true exactly when the classes are balanced. |
| C77 | partial | Nmf | constructor table | `C77_partial`, `C77_negation` | UoI_NMF_Base uses all parts it is given and UoI_NMF all nmf_ and db_ arguments except db_leaf_size. False: UoI_NMF ignores nmf, cluster, nnreg, cons_meth and db_leaf_size. |
| C78 | partial | Nmf | nonnegative least squares optimum is exact on the cone | `C78_partial`, `C78_negation` | Float data. False for integer data, whose weights are truncated. |
| C79 | partial | Datasets | algebra; witnesses | `C79_partial`, `C79_responses`, `C79_negation` | Samples that are not constant, two or more samples. False: one feature gives NaN data, one sample with two classes raises TypeError. |
| C80 | partial | Lbfgs | loop induction; witness for max_linesearch=1 | `C80_backtracking`, `C80_owlqn`, `C80_morethuente_partial`, `C80_negation` | Proved for both backtracking searches. False for More-Thuente: the last permitted trial is never accepted, so max_linesearch=1 always fails. |
| C81 | partial | LbfgsPy | simulation between callbacks that raise and callbacks that return zero | `C81_partial`, `C81_negation` | False: exceptions are swallowed and count as the value 0; the outcome is characterised exactly. |
| C82 | partial | LbfgsPy | tables | `C82_partial`, `C82_negation` | All arguments except min_step, whose message names max_step. |
| C83 | proved | Lbfgs, LbfgsPy | invariant of state and memory | `C83_unused` |  |
| C84 | proved | Lbfgs, LbfgsPy | convergence test, convexity | `C84_criterion`, `C84_gap`, `C84_fmin` |  |
| C85 | partial | Lbfgs | positive curvature of all stored pairs; witness | `C85_descent_partial`, `C85_codes_partial`, `C85_negation` | Proved without penalty for searches that enforce curvature, or armijo with a strictly monotone gradient; proved with penalty for a strictly monotone gradient. Penalised problems never give the error codes at all. False for armijo on a non-convex objective (C85_negation). |
| C86 | proved | Lbfgs, LbfgsPy | invariant on the ghost list of reports | `C86_reports` |  |
| C87 | proved | LogisticL1 | refinement of the optimiser run to the penalised convex objective, then the convergence criterion | `C87_binary`, `C87_multinomial`, `C87_no_worse_binary`, `C87_no_worse_multinomial` | Real arithmetic. |
| C88 | proved | LogisticL1 | bounds on gradients and steps; codes of penalised runs | `C88_no_error`, `C88_ends` | Real arithmetic. |
| C89 | proved | PoissonLbfgs | convexity of the loss, the convergence criterion of the optimiser, change of units | `C89_near_optimal`, `C89_no_worse` | Real arithmetic; with standardize an intercept is fitted (see C25 for the other case). |
| C90 | proved | PoissonLbfgs | bounds on the gradient at zero; codes of penalised runs | `C90_no_error`, `C90_ends` | Explicit magnitude bound. |
| C91 | partial | PoissonLbfgs | no-worse theorem of the optimiser and change of units; witness | `C91_partial`, `C91_negation` | False with standardize: the intercept is not converted to the units of the solver. Holds without standardize, or when the previous coefficients are orthogonal to the feature means. |
| C92 | partial | PoissonLbfgs | evaluation of the start over numbers with infinities, for all data | `C92_negation`, `C92_partial` | False after a fit to a response of zeros with warm_start: the optimiser accepts the infinite starting point at once. Holds when the previous intercept is not minus infinity. |
| C93 | partial | PoissonLbfgs, Poisson | congruence; witness | `C93_partial`, `C93_negation` | False without an intercept: intercept_ of an earlier fit to a constant response survives. Holds with an intercept, for both solvers. |
| C94 | proved | Poisson | induction over sweeps | `C94_iterates` | The meaning of a sweep is C40 and C41. |
| C95 | proved | Datasets | list induction | `C95_response` | The distribution of the response around the predictor is a parameter. |
| C96 | partial | Nmf | case analysis of the constructor; witness | `C96_partial`, `C96_negation` | False for NumPy integers as seeds (AttributeError); exact characterisation for all other seeds. |
| C97 | proved | Lbfgs | invariant of the interval of uncertainty, case by case; induction over the search; extreme value theorem for the meaning of bracketing | `C97_steps`, `C97_interval`, `C97_safeguard`, `C97_minimiser` | The update of the interval is stated for one step of the search, with the invariant as hypothesis. |
| C98 | proved | Lbfgs | algebra of the interpolating cubic; exact square roots | `C98_cubic`, `C98_extrapolation`, `C98_quadratic`, `C98_choice` | Real arithmetic with exact square roots. |
| C99 | partial | Ctors | computation with the arguments abstract; case analysis of the classes | `C99_partial`, `C99_negation` | get_params and every non-empty set_params raise AttributeError for every object (negation); readable and missing parameters per class proved |
| C100 | proved | Ctors | computation with the arguments abstract; case analysis of the classes | `C100_forwarded`, `C100_target`, `C100_seed`, `C100_defaults`, `C100_invalid` |  |
| C101 | partial | Ctors | case analysis of the solver; witness | `C101_partial`, `C101_negation` | 'cd' and 'pyc' proved; every other value is accepted (negation) |
| C102 | partial | Ctors | computation with the solver abstract; witness | `C102_partial`, `C102_negation` | set_params(tol=...) raises (negation) |
| C103 | proved | Lbfgs | invariant of the ring buffer of values; induction over the iterations | `C103_first` |  |
| C104 | proved | InterceptFit | tangent inequalities of log-sum-exp; derivatives | `C104_binary`, `C104_multinomial` |  |
| C105 | partial | Labels | computation of the score by induction over the samples; witness | `C105_partial`, `C105_signs_partial`, `C105_first`, `C105_negation` | proved for labels 0..k-1 and for two labels of which the larger is 1; false for other labels, where C105_first says what is computed |
| C106 | partial | Labels | encoding commutes with increasing maps; witness | `C106_labels`, `C106_rename_partial`, `C106_negation`, `C106_sign` | predicted labels proved; renaming proved for scores that ignore the labels (accuracy); false for the log score |
| C107 | partial | Labels | shape of the decision values; witness | `C107_positions`, `C107_partial`, `C107_negation` | proved for labels 0..k-1; false for others, where positions are predicted |
| C108 | partial | Labels | induction over the dictionary and the labels; witness | `C108_dict_partial`, `C108_none`, `C108_balanced`, `C108_negation` | 'balanced' and no class weights proved for all labels; dictionaries for labels 0..k-1; false for others |
| C109 | partial | Logistic, Poisson | sums over the fibres of the repetition; witness | `C109_binary_partial`, `C109_multinomial_partial`, `C109_poisson_partial`, `C109_unpenalised_partial`, `C109_negation` | objective and gradient are those of the repeated rows up to a factor, with the penalty rescaled; same minimisers without penalty; false with a penalty |
| C110 | partial | Fit, Classes | the number of stored coefficients determines the classes present; induction over the selection loop; witness | `C110_selection`, `C110_estimation_partial`, `C110_raises`, `C110_accepts`, `C110_negation` | serial fit; selection bootstraps with two or more features, estimation bootstraps if a candidate has two features; false for candidates of one feature |
| C111 | partial | Fit, Intersection | induction over the selection loop; indexing of the reshaped array | `C111_supports_partial`, `C111_shared_partial`, `C111_negation` | Exact for at least two (threshold, parameter) pairs and at least two coefficients; false for one pair (a vector instead of a matrix, because of squeeze). |
| C112 | proved | Lbfgs, LbfgsPy | table of names; invariant of the main loop on consecutive reports | `C112_moves`, `C112_exact`, `C112_unknown` | Exact arithmetic (linearly ordered fields). |
| C113 | partial | Transform, Cur, Nmf | case analysis on the outcome of fit with C54 and C61; witness | `C113_uoi_cur`, `C113_cur`, `C113_features_partial`, `C113_negation`, `C113_nmf` | The number of features is not checked by the CUR classes: a matrix is accepted exactly if it has the selected columns (C113_negation gives the witness). UoI_NMF checks its data (C61). |
| C114 | proved | Lbfgs | interpolations are exact on quadratics; induction over the extensions | `C114_ray`, `C114_quadratic` | Exact arithmetic (linearly ordered fields) with a square root that is exact on squares. |
| C115 | partial | NoFeatures, Scaling, Logistic, Utils | sums of squares around the mean; Gibbs' inequality; witness | `C115_r2`, `C115_constant`, `C115_criteria`, `C115_poisson`, `C115_poisson_count`, `C115_multinomial`, `C115_binary`, `C115_negation` | With fit_intercept=False the candidate is still scored with an intercept, which the returned model does not have (C115_negation). |
| C116 | proved | Lbfgs | eigenvalue bounds for the two-loop recursion by induction on the pairs; decrease per iteration from curvature and Lipschitz bounds; induction on the iterations | `C116_bound`, `C116_ends`, `C116_armijo`, `C116_accuracy` | Exact arithmetic; the constants are the reachStep and descent of Spec/Converge.lean. |
| C117 | proved | Lbfgs, LbfgsPy | all steps up to a bound have sufficient decrease; induction on the trials; C116 | `C117_codes`, `C117_fmin` | Exact arithmetic. |
| C118 | proved | Lbfgs, LbfgsPy | the search on a quadratic (C114) extrapolates by 4 until it brackets, then hits the minimiser of the line; C116 | `C118_fmin` | Exact arithmetic. |
| C119 | proved | Lbfgs, LbfgsPy | every part commutes with the change of variables; simulation of the main loop in both directions | `C119_rotation`, `C119_reorder` | Exact arithmetic. |
| C120 | partial | The Poisson fit with L-BFGS and the L1 logistic fit of C87 and C88, with the optimiser of C66 to C119 | The losses, the scaler, the starting vector, the stored attributes and `zero_coef` commute with a change of the order and the signs of the features, with one block of `k` entries per feature; then C119; sums over the samples do not depend on their order; negation by a fit of two equal features that starts within its tolerance | `C120_poisson`, `C120_poisson_rows`, `C120_logistic_partial`, `C120_logistic_rows`, `C120_logistic_negation` | Exact arithmetic. Poisson is fully covered, with and without intercept, standardisation and warm start. The logistic fit needs an intercept and starting coefficients for all features; without an intercept it is false (negation): a multinomial fit starts with the class intercepts in the column of the last feature. The order of the samples is covered with and without intercept. |
| C121 | partial | The serial fit of C13 and C111, for two estimators related by a permutation of the features | C111 characterises the supports by votes, which are permuted; C13 to C15 characterise scores, choice and median; the strictly best candidates correspond and medians are unique; negation by a computed fit with two equally good features | `C121_supports_partial`, `C121_estimates_partial`, `C121_coef_partial`, `C121_negation` | False when candidates tie in a bootstrap: the lexicographically first mask is chosen (C121_negation). Also missing: a single threshold-parameter pair (C111) and a support per class. |
| C122 | partial | `MaskedCoefLogisticRegression.fit` as a state transition of the object's attributes, optimisation, scaler and input checks as parameters (`Model/MaskedFit.lean`) | Inversion of a successful call; sums over lists; negations by computed fits of two samples | `C122_plain`, `C122_standardized_partial`, `C122_shift`, `C122_warm_partial`, `C122_negation`, `C122_warm_negation` | True without standardize. With standardize the intercept is not corrected for the means (C122_negation) and each warm start divides the start by the standard deviations again (C122_warm_negation). |
| C123 | partial | As C122 | Inversion of a failed call; invariant over any sequence of calls; negations by computed calls | `C123_rejected`, `C123_failed_partial`, `C123_stuck`, `C123_shapes`, `C123_negation`, `C123_zero_negation`, `C123_decision` | coef_ survives a failed fit, intercept_ is replaced by zeros (C123_negation); after a fit with fewer classes fails, all later warm-started fits raise (C123_stuck). C=0 is accepted and ends in a division by zero (C123_zero_negation). |
| C124 | partial | `FailedFit.Task.fit`: the serial fit of `base.py:179-445` as a sequence of assignments to the object, with `_pre_fit` of the classifier | Agreement with the fit of C08/C19 on what is returned; inversion of a failed call through all steps; negations by computed calls | `C124_agrees`, `C124_rejected`, `C124_kept_partial`, `C124_late`, `C124_grid`, `C124_negation`, `C124_constant_negation` | Proved for models without classes_ and for data with the classes of the earlier fit, when the refit of the intercept does not raise. False of the classifier: classes_ is replaced before anything is checked, so after a failed fit the old coefficients predict the new labels; and a fit on one class raises after coef_ has been set to zero. A failed first fit also decides the grid of the next (C124_grid). |
| C125 | partial | `HeldOut`: sizes of `train_test_split`, `r2_score` of scikit-learn 0.24 with NaN for fewer than two rows, `np.argmax` with NaN, the choice per bootstrap | Monotonicity of the score in the squared error; `argmax` invariant; NaN at the head ends the search; negation by a computed choice | `C125_sizes`, `C125_best_partial`, `C125_constant`, `C125_single`, `C125_small`, `C125_negation` | Proved when the response varies on the held-out rows. False otherwise: for a single held-out row r2_score is NaN for every candidate and np.argmax takes the first one (so with the default estimation_frac and at most ten samples the first candidate is always chosen, often the one without features, C125_small); for equal held-out responses only exact candidates are distinguished. |
| C126 | partial | Model/LbfgsObj (the class LBFGS with its attributes, conversions to C types, arrays with shapes, sessions on one object) | induction over sessions; refinement of the flat model of fmin_lbfgs; transport of a whole minimisation along a reshaping | `C126_settings`, `C126_assign`, `C126_alike`, `C126_roundtrip_partial`, `C126_linesearch_negation`, `C126_fmin`, `C126_overflow`, `C126_shape_partial`, `C126_size`, `C126_reshape`, `C126_falsy_negation`, `C126_message_negation`, `C126_defaults_negation`, `C126_fresh_negation` | False of the code in six places: linesearch reads as a number that cannot be assigned again; a scalar x0 gives an array of shape (1,); a progress callable that counts as false is never called; the TypeError about progress names the type of f; the default of m is 10, not the documented 6; a new object has delta 1e-5 and max_linesearch 40, documented as 0 and 20. |
| C127 | partial | `Synthetic`: noise scale with NumPy's division and square root, responses, class scores | Variance algebra over lists; negations for all coefficients by shifting | `C127_snr_partial`, `C127_null_negation`, `C127_single_negation`, `C127_negative`, `C127_zero`, `C127_sample`, `C127_logits`, `C127_support_negation`, `C127_two` | Proved for positive snr. False: without informative features or with one sample there is no noise at all; a negative snr is accepted and gives NaN, and snr=0 gives infinite responses or NaN. make_classification standardises each sample (not each feature), so the features of a sample sum to zero and any coefficients can be replaced by others without a zero; with two features all samples are (1,-1) or (-1,1). |
| C128 | partial | `Synthetic`: flat content of the HDF5 data set, transposition, reshape, file permissions | index arithmetic | `C128_image_partial`, `C128_pixels`, `C128_readonly_negation` | False when the file may be read but not written to: it is opened with mode 'r+'. |
| C129 | partial | `Recovery`: candidates of each bootstrap by least squares (solver a parameter with the minimum property as hypothesis), `HeldOut.choose`, median, `Scaling.linPre`/`linPost` | exact fits are optimal, linear algebra, median of a majority | `C129_exact_partial`, `C129_heldout_negation`, `C129_missing`, `C129_best` | Proved when the held-out rows of a majority of the bootstraps tell every candidate from the truth. False otherwise: a smaller candidate exact on the held-out rows wins the tie because it comes first. C129_best: each bootstrap takes the candidate with the smallest squared error on the test rows, the candidate without features predicting the mean training response. |
| C130 | partial | `LogisticMin`: the functions handed to the two optimisers, from `binLossGrad`/`multiLossGrad`, with mask and intercept | compactness: a continuous function of a linear image that grows with every negative coordinate; monotonicity along a separating direction | `C130_binary_partial`, `C130_negation`, `C130_interpolating`, `C130_pgtol`, `C130_penalised`, `C130_l1`, `C130_multi_partial`, `C130_multi_penalised`, `C130_multi_l1`, `C130_unique`, `C130_l1_unique`, `C130_multi_unique`, `C130_multi_l1_unique` | False for separable samples, e.g. when the support has at least as many features as there are samples: no solution exists, and the stopping test is met by coefficients as large as one likes. Solutions, where they exist, agree in the probabilities of the training samples. |
| C131 | partial | the objective and gradient handed to fmin_lbfgs, built from the model of _poisson_loss_and_grad, real arithmetic | coercivity on the range of the linear predictor (compactness), strict convexity of exp | `C131_partial`, `C131_negation`, `C131_interpolating`, `C131_penalised`, `C131_unique` | exact criterion for the existence of an unpenalised solution; false for counts with a receding direction (C131_negation). Penalised fits always have one; predictions of solutions are unique. |
| C132 | partial | `InfoChoice`: criteria with infinite log-likelihood, scores on the training rows, choice per bootstrap, median, whole `fit` around a least squares solver | `np.argmax` on extended reals gives the first maximum; scores as negated costs; exact candidates coincide with the truth where rows determine them; majority median; computed counterexample for every solver | `C132_best_partial`, `C132_estimate_partial`, `C132_exact`, `C132_unknown`, `C132_constant`, `C132_recovery_partial`, `C132_negation` | The trade-off is exact when no candidate is exact on the training rows (for the scores and for the estimate of a bootstrap, which pays for the features it selects), and noise-free recovery holds when the training rows tell the candidates apart. False for exact candidates: the score is +inf whatever the number of features, so the first exact candidate wins. |
| C133 | partial | Cur | expectation as a sum of probabilities; independence across bootstraps; Markov's inequality | `C133_expected`, `C133_select_partial`, `C133_plain`, `C133_uoi_partial`, `C133_all_bootstraps`, `C133_negation_select`, `C133_negation` | False for CUR with its default c on data with at most 20 features, and for UoI_CUR in general, where all bootstraps have to agree. |
| C134 | partial | `Model/Lbfgs` (btLoop, backtracking, lbfgs), `Model/LbfgsPy` | induction over the trials of the search with an invariant on the current length relative to the interval of acceptable lengths; bounds of C116/C118 on directions; concrete run for the negation | `C134_quadratic`, `C134_smooth_partial`, `C134_negation` | Proved for quadratics of any condition number and for objectives with 2.1 (1-wolfe) L <= (1-ftol) mu. False for strongly convex smooth objectives in general: the search halves and multiplies by 2.1 without bracketing and can pass over the acceptable lengths (negation, with 100 trials). Exact arithmetic. |
| C135 | partial | Thresholds, Intersection, Fit | rows of the candidate table as a permutation; np.unique of permuted rows or of the same set of rows is the same list; induction over the whole program of fit | `C135_argument`, `C135_fit`, `C135_repeat_partial`, `C135_negation`, `C135_bootstraps`, `C135_more_partial` | Order of the thresholds: conversion of the argument and the whole fit on any number of processes, in full. Repetition: all cases with at least two thresholds both times or at least two penalties; negation with a single threshold and a single penalty, where repeating the threshold turns the vector of C03 into a matrix. Order of bootstraps and penalties: in full for the intersection. More thresholds or penalties: all cases but the single pair and the single coefficient. |
| C136 | partial | `Model/Lbfgs` (lineSearch, owlqnLoop, pseudoGradient, iterate, lbfgs), `Model/LbfgsPy` | per iteration either the penalised objective falls by a fixed amount or the step is cut by a coordinate that reaches zero; pigeonhole over n + 1 iterations turns this into a fixed decrease; sum of the decreases against the lower bound; concrete family of quadratics for the negation | `C136_bound_partial`, `C136_range_bound`, `C136_ends`, `C136_codes`, `C136_accuracy`, `C136_fmin_partial`, `C136_negation` | Bound on the iterations (independent of max_linesearch if all variables are penalised; otherwise through the shortest step that max_linesearch allows), termination, possible codes and accuracy, with any range of penalised variables, for the C function and for fmin_lbfgs, in exact arithmetic. That the call finds the minimiser is false: for every max_linesearch there is a quadratic objective with the same constants and a starting point from which a line search fails where the slope is at least 1 (C136_negation). Missing: bounds in floating point. |
| C137 | proved | `Model/Poisson` (PObj.predict, PObj.predictMean) | ratio of neighbouring probabilities, induction up to and beyond the mean | `C137_mode`, `C137_unique` | Real arithmetic. The distribution is defined by its probabilities in the specification. |
| C138 | partial | `Model/Poisson` (cd, cdSweep, cdIntercept, adjustedResponse) | closed form of the first sweep and of the update of the intercept; bounds for exp | `C138_negation`, `C138_intercept_partial` | False (C138_negation). The update of the intercept never goes below the best intercept for the current coefficients, and from above it the objective does not increase and the distance is squared (C138_intercept_partial). The surrogate of an iteration never increases (C40). |
| C139 | proved | Model/PoissonWeights (weightedResponse, cdLoopW, cdW), Model/Poisson (cdSweep) | subgradient conditions: soft-thresholding fixes a point iff the slope is a subgradient; convexity of exp for sufficiency, derivatives along coordinates for necessity; induction over the loop | `C139_fixed_iff`, `C139_same_predictions`, `C139_ignored`, `C139_scale`, `C139_none` | Cold start; real arithmetic. That the loop reaches a fixed point is not claimed (see C138). |
| C140 | partial | Model/Sse (loops over registers of two numbers), Model/Lbfgs | induction over the loops with a block-wise invariant; refinement to the portable routines on padded vectors; witnesses | `C140_vectors`, `C140_dot`, `C140_round`, `C140_padded_partial`, `C140_sign_partial`, `C140_negation` | False for the sign test of the line search when a derivative is zero, and for an orthantwise_end between n and the next multiple of eight, which only the portable build rejects. Partial: all vector routines on padded vectors; the sign test for nonzero derivatives. |
| C141 | partial | Model/PoissonFloat.lean: the solver over reals with NaN and infinities (IEEE rules; sums and products of finite numbers exact, exp with limits), adjusted response, masked updates, soft threshold, convergence check | Refinement of the exact solver along its iterates while in range; NaN and infinities absorb in sums, induction on the remaining iterations; two witnesses of the negation | `C141_partial`, `C141_overflow`, `C141_large_counts`, `C141_constant_feature`, `C141_negation`, `C141_add`, `C141_mul`, `C141_div`, `C141_functions`, `C141_compare` | False of the code: the first iteration sets the intercept to the mean of the counts less one, so that standardized data with a mean above 710 gives NaN; a feature constant in the data gives 0/0 without ridge penalty. Proved: in range and with nonzero features the floating point solver is the exact one; beyond it exactly what becomes NaN. The operations on infinities are limits of those on reals, NaN where there is none (C141_add and following). |
| C142 | partial | Verif/Model/Lbfgs.lean over any arithmetic with a NaN (Spec/LbfgsNan.lean) | an accepted step needs a comparison that holds; invariant of the lost state (gradient and direction all NaN) for the runs that never end | `C142_partial`, `C142_default`, `C142_accepts`, `C142_never_ends`, `C142_limited`, `C142_negation` | Proved for the default line search without penalty and for every penalised problem. False for the Armijo, Wolfe and strong Wolfe searches without penalty: they accept a NaN trial, and the call then never ends unless max_iterations is set, in which case a vector of NaN is returned with a warning (C142_accepts, C142_never_ends, C142_limited, C142_negation). |
| C143 | partial | `split`, `curRows` (Model/SplitSize): 1 - frac and its product with n with roundings to nearest 53-bit numbers | error bound of two roundings and the ceiling; exact differences (Sterbenz); the last bits of 0.7 | `C143_partial`, `C143_rounded_up`, `C143_default`, `C143_ends`, `C143_cur`, `C143_negation` | False: seven tenths of ten samples train on six (C143_negation, for every rounding to nearest). Proved: within one sample and the rounding error always, exact away from the integers (C143_partial), exact for every fraction from a half up that is not rounded down when read (C143_rounded_up), which includes the defaults 0.9 and 0.8 for every number of samples (C143_default), 0 and 1 (C143_ends), CUR (C143_cur). Fewer than 2^50 samples; train_test_split is external and its arithmetic is modelled from scikit-learn's documented ceil(test_size * n). |
| C144 | partial | `makeClassification`, `labels`, `softmaxRow`, `classState` (Model/MakeClassification), `makeW` (Model/Datasets) | decomposition of a successful call; induction over the draws with the state of the generator; shift invariance of the softmax | `C144_classes`, `C144_two`, `C144_intercepts`, `C144_no_intercept`, `C144_seed`, `C144_succeeds`, `C144_failures`, `C144_negation` | False for n_classes=1, whose labels are 0 and 1, and for NumPy integers as random_state, which raise AttributeError (C144_negation). Proved for two and for more classes: shapes, range of the labels, the probabilities each label is drawn from (positive, summing to one), the intercepts of maximum zero and that their shift changes no probability, Python integer seeds; success for two or more features and two samples (one for more than two classes), and the errors otherwise. Probabilities are ideal real numbers; the distribution of the generator itself is external. |
| C145 | partial | `supports`, `supportsList`, `doubles` (Model/Proportion) over `stabilityToThreshold` and `intersection` | error bound of two roundings against the gaps of rationals with a bounded denominator; the last bits of 0.57 | `C145_partial`, `C145_exact`, `C145_all`, `C145_scalar`, `C145_negation` | False: 0.9 of the default 24 bootstraps admits features selected in 21 (truncation), and 0.57 of 100 admits 56 (rounding), for every rounding to nearest. Proved: every feature in the proportion is admitted and none that is more than one bootstrap short (C145_partial); exact for whole numbers of bootstraps and proportions not rounded down, so for 1/2, 3/4 and the default 1 (C145_exact, C145_all). At most 2^50 bootstraps over the denominator; more than one pair of proportion and penalty and more than one feature, because of C03 and C04. |
| C146 | partial | `fit` (Model/ProportionCur) over `Cur.fit` and `doubles` | C53 with the error bounds of C145 | `C146_partial`, `C146_exact`, `C146_accepted`, `C146_negation` | False: 0.9 of 24 bootstraps admits columns drawn in 21 (truncation), 0.57 of 100 admits 56 (rounding), for every rounding to nearest. Proved: every column in the proportion is selected and none that is more than one bootstrap short of it for every rank; exact for whole numbers of bootstraps and proportions not rounded down; less than one bootstrap is refused, two or more accepted. |
| C147 | partial | `proba`, `probaRow`, `softmaxRow`, `emptyBinary`, `emptyMulti` (Model/Proba) over `uoiFit`, `maskedFit` (Model/Labels) | strict monotonicity of exp and the logistic function; argmax_spec | `C147_partial`, `C147_masked`, `C147_odds`, `C147_empty`, `C147_negation` | False for the candidate without features when two classes are equally frequent in the bootstrap: it predicts the second class, the classifier it stands for the first. Proved: both classifiers predict the first of their most probable classes, probabilities are distributions with the decision values as log-odds (C147_partial, C147_masked, C147_odds), the candidate without features agrees in all other cases (C147_empty). scikit-learn's predict and predict_proba (0.24) are modelled; real arithmetic. |
| C148 | partial | `chooseSupport`, `chooseScored`, `accuracy` (Model/Ties) over `intersection` and `argmaxExt` | lexicographic order of the unique supports (C03) and first maximum | `C148_partial`, `C148_accuracy`, `C148_empty`, `C148_negation` | False for candidates of which none is part of the other: features 2 and 3 win against feature 1 alone. Proved: the choice by accuracy is the first most accurate candidate; with any score without NaN, a candidate that is part of the chosen one has a lower score, and the candidate without features loses only to a higher score. More than one pair of threshold and penalty and more than one feature, because of C03 and C04. |
| C149 | partial | `Identify`, `LogisticMin`: the objectives and gradients handed to the optimisers, the starting vector | strict convexity in the margins; invariance under a common shift of the classes; the gradients of the classes cancel, induction over their linear span; shift by the mean for the penalised fit | `C149_binary`, `C149_partial`, `C149_classes`, `C149_shift`, `C149_start`, `C149_warm`, `C149_penalised`, `C149_negation` | True of two classes and of a finite C. False of three or more classes without penalty: adding a number to the coefficients of a feature in all classes gives another solution (C149_shift, C149_negation). The starting vector decides which one is returned: the sums over the classes do not move (C149_start, C149_warm), and from one starting vector the solution is determined (C149_partial). SciPy's optimiser enters as an assumption (its steps are combinations of gradients). |
| C150 | partial | `chooseScored`, `chooseSupport` (Model/Ties) over `intersection` | nested candidate lists (C135) and the first maximum in their lexicographic order; computed counterexample | `C150_partial`, `C150_accuracy`, `C150_negation` | Proved for scores without NaN and more than one pair of threshold and penalty. False with NaN: np.argmax takes a further candidate whose score is NaN instead of the best one (C150_negation). |
| C151 | proved | `poisTarget` (Model/PoissonMin), `Independent` (Spec/Identify) | strict convexity in the linear predictors (C131); moving along a direction that no sample sees | `C151_unique`, `C151_penalised`, `C151_dependent`, `C151_iff` | About exact minimisers of the objective handed to the optimiser, without sample weights, in exact arithmetic. |

## 4. Results: where the code does not do what is expected

Each item is a property whose statement is false of the code (a `…negation…` theorem shows it), or a fact
noticed while transcribing (marked *noticed*, not stated as a property).

Linear models
* Candidate supports are squeezed before `np.unique`, so one (threshold, parameter) pair or one feature
  gives a list of booleans instead of a matrix (C03, C04, C06, C73).  With one feature and several
  parameters the selection loop raises `ValueError` (`base.py:300`, C73).
* An empty list or array of stability thresholds is accepted (C02).
* A distributed fit with more processes than selection bootstraps differs from the serial one for
  warm-starting solvers (C09).  A failing split on rank 0 leaves all other ranks waiting (C12).
* The reset `*= 0.` between bootstraps turns an intercept of minus infinity into NaN (C16).
* Supports and scores of an earlier fit survive a fit with a constant response (C19); the first
  regularization grid is kept for ever by three of the estimators (C20).
* NumPy integers as `random_state` give identical bootstraps (C21).
* `n_lambdas=1` gives only the smallest value of the path (C22).
* Undoing the standardization of a logistic model adds `mean*scale*coef` to the intercept instead of
  subtracting `mean*coef` (C24).  The Poisson model without intercept centres its features anyway (C25).
* A constant response makes the classifier raise (C18).
* `UoI_Poisson` drops `standardize` and accepts the metric `acc`, which it cannot compute (C28, C32).
* AICc prefers a larger support at the boundary `n = k + 1` (C29).
* Every construction adds another handler to the same logger (C35).
* `Bcast_from_root` and `Gatherv_rows` only work for root 0 (C36, C37).
* `get_params`, and with it `repr`, `clone` and `set_params`, raises `AttributeError` for every UoI linear
  model (C99).  `UoI_Lasso` accepts any `solver` and fails in `fit` (C101); `PycLasso.set_params(tol=…)`
  raises `ValueError` (C102).
* With `fit_intercept=False` a candidate without features is scored as if it had an intercept, so it can win
  although the returned model, which predicts zero, is worse (C115).  The information criteria of a Poisson
  candidate count the intercept as a parameter unless it is exactly zero (C115).
* *Noticed*: `n_boots_sel=0` raises `IndexError`; no candidate support makes rank 0 raise while the other
  ranks wait.

Poisson and logistic solvers
* Warm-started coordinate descent never updates coefficients at zero and raises for a nonzero start (C42);
  its convergence check ignores the intercept (C75).
* `Poisson(fit_intercept=False)` cannot predict after a fit (C45), or predicts with the intercept of an
  earlier fit to a constant response (C93).
* A warm start of the Poisson L-BFGS fit does not convert the intercept to standardized units, so it starts
  from, and can return, a worse model than the one it had (C91).  After a fit to a response of zeros every
  later warm-started fit returns at once, without a warning, and predicts zero (C92).
* The binary logistic grid is computed with labels 0/1 where the loss expects -1/+1; without an
  intercept the last feature is ignored (C49).  The all-zero stop ignores the last coefficient without an
  intercept (C50) and sets the intercept to zero (C76).
* The log-likelihood score compares encoded responses with the original labels (`base.py:789`): with the
  labels 1 and 2 it is the mean log-probability of the first class, so the worse candidate wins and
  renaming the classes changes the model (C105, C106).
* `MaskedCoefLogisticRegression` predicts positions instead of labels (`logistic.py:382`, C107) and compares
  the keys of `class_weight` with positions (C108).
* The losses divide by the number of rows, not by the total weight, so with a penalty a weight of two is not
  the same as a row given twice (C109).
* Without an intercept a multinomial fit starts with the class intercepts in the column of the last feature
  (`logistic.py:592-593`), so the order of the features matters (C120).
* When candidates tie in a bootstrap the lexicographically first mask is chosen (`utils.py:143`,
  `base.py:434`), so of two equally good features the later one is kept, whatever their order (C121).
* `MaskedCoefLogisticRegression._post_fit` divides the coefficients by the standard deviations but does not
  correct the intercept for the means (`logistic.py:453-458`), and a warm start uses the stored coefficients
  as if they were of the standardised features (`logistic.py:404-411`, C122).
* `MaskedCoefLogisticRegression.fit` sets `intercept_` to zeros before the optimisation (`logistic.py:413`), so
  a fit that raises spoils the earlier model, and a failed warm start with fewer classes makes all later
  fits raise; `C=0` is accepted although the message says positive (`logistic.py:365`, C123).
* A failed fit of `UoI_L1Logistic` changes what the earlier model predicts: `classes_` is replaced first
  (`logistic.py:204`), so the old coefficients give new labels; a fit on one class raises after `coef_` has
  been zeroed (`base.py:214-217`). A failed first fit fixes the grid of later ones (C124).
* With one held-out row `r2_score` is NaN for every candidate and `np.argmax` takes the first
  (`base.py:434,624`): with `estimation_frac=0.9` and at most ten samples `UoI_Lasso` ignores how well its
  candidates predict (C125).
* `LBFGS.linesearch` reads as a number that the setter refuses (`KeyError`); a progress callable that counts
  as false is accepted and never called (`if progress_fn:`); the `TypeError` about `progress` names the type
  of `f`; a scalar `x0` gives an array of shape `(1,)`; the default of `m` is 10, documented as 6; a new
  `LBFGS` object has `delta` 1e-5 and `max_linesearch` 40, documented as 0 and 20 (C126).
* `make_linear_regression` scales its noise by the variance of the signal in the sample, so there is none
  without informative features or with one sample; a negative `snr` gives NaN.  `make_classification`
  standardises samples instead of features, which makes coefficients and supports unidentifiable (C127).
* `load_swimmer` opens its file for writing and fails in a read-only installation (C128).
* On noise-free data a candidate that lacks true features but happens to be exact on the held-out rows ties with the true model, and the earlier (smaller) one is chosen: `coef_` is wrong (C129).
* The estimation model of `UoI_L1Logistic` has no penalty (`C=np.inf`): on training samples that the support separates there is no solution, and `coef_` depends on where the optimiser stops (C130).
* The estimation model of `UoI_Poisson` has no penalty either (`alpha=0`): with a feature that is nonzero only where nothing was counted there is no solution, and the stopping test is met at arbitrarily large coefficients (C131).
* With an information criterion a candidate that is exact on the training rows scores `+inf` whatever its
  size, so the first exact candidate is taken and larger supports can win over smaller ones (C132).
* A bootstrap without one of the classes makes the classifier raise `ValueError`, except that a candidate
  with a single feature gets the one coefficient of the remaining two classes copied to all (C110).
* `CUR` and `UoI_CUR` select fewer columns on average than the documented "expected number of columns":
  leverage scores above `1/c` are cut off, and with several bootstraps all of them have to agree (C133).
* `fmin_lbfgs` with 'wolfe' or 'strongwolfe' can fail at the first iteration on a strongly convex, smooth
  objective: the search halves the step length when it is too long and multiplies it by 2.1 when it is too short,
  and does not remember the lengths it has tried. If the acceptable lengths lie in a narrow interval it passes
  over them; with 100 trials the starting point is returned with a warning (`C134_negation`). On quadratics this
  cannot happen (`C134_quadratic`).
* With an L1 penalty a line search can fail far from the minimiser, for every `max_linesearch`: a variable that is
  close to zero with a steep search direction leaves its orthant unless the step is very short, is projected to
  zero, and the Armijo test compares with the decrease promised for the whole projected step. There is a family of
  quadratics with fixed constants on which the call stops after one iteration with a warning at a point where
  the slope is at least 1 (`C136_negation`). Apart from such failures the penalised calls converge
  (`C136_fmin_partial`).
* The coordinate-descent Poisson solver takes full Newton steps. For data with a mean response of at least three and
  a penalty at or above the critical one, the fit that it reports as converged is worse than its starting point,
  and it predicts `exp(mean - 1)` instead of the mean (`C138_negation`).
* With a single penalty, giving the single `stability_selection` value twice changes the supports from a vector
  to a matrix (`C135_negation`); in all other cases the values act as a set.

Decompositions
* `column_select` ignores its seed (C52) and selects columns of zero leverage for an infinite `c` (C51).
* All bootstraps of `UoI_CUR` are identical for an integer seed (C56); an empty selection gives arrays of
  different shape (C54); a 2-d array of ranks is accepted (C55); `transform` does not check the number of
  features (C113).
* NMF: the default constructor cannot be fitted, `get_params` and `set_params` always raise (C60); integer
  data truncate the weights (C61); labels other than -1, 0, 1, … give zero rows (C57); NaN dissimilarity
  wins (C59); `UoI_NMF` ignores the solvers it is given (C77);
  a NumPy integer as seed raises `AttributeError` (C96).
* `make_classification` gives NaN for one feature and raises for one sample (C79).

L-BFGS
* With a penalty the search called `wolfe` does not check curvature (C65); the result can be worse than the
  starting point when a variable of a non-convex objective is not penalised, or with NaN values (C66, C67).
* A stop by the delta test and progress values 1 raise `KeyError`; progress value 2 counts as convergence
  (C70).  Exceptions in callables are swallowed (C81).
* `m`, `ftol`, `gtol`, `orthantwise_start` are not validated as documented (C71); one message names the
  wrong parameter (C82).
* The Moré–Thuente search never accepts its last permitted trial (C80).
* An SSE2 build of liblbfgs takes a zero derivative for one of opposite sign, and accepts an `orthantwise_end`
  beyond the number of variables (C140).
* The Armijo search can lead to an ascent direction for a non-convex objective (C85).
* Coordinate-descent Poisson fits of standardized data with a mean count above the range of `exp` plus one end in NaN; so
  do pure-lasso fits with a feature that is zero everywhere, as constant ones are after standardizing (C141).
* Without penalty, the Armijo, Wolfe and strong Wolfe searches of `fmin_lbfgs` accept a trial whose value and gradient are
  NaN; the call then never ends, or returns NaN with a warning if `max_iterations` is set (C142).
* `selection_frac=0.7` (or `estimation_frac`) trains on six of ten samples, not seven: `1 - 0.7` is rounded up, and the
  number of held-out samples is the ceiling of its product with ten; the defaults are not affected (C143).
* `make_classification` with one class draws labels 0 and 1, and raises `AttributeError` if `random_state` is a NumPy
  integer, which the other two generators accept (C144).
* A proportion given as `stability_selection` is truncated to a number of bootstraps, so features that are up to one
  bootstrap short of it are selected: 21 of 24 for 0.9; 0.57 of 100 bootstraps admits 56 by rounding alone (C145); so are
  columns by `UoI_CUR` (C146).
* With two equally frequent classes the candidate without features predicts the second class everywhere (`intercept_ >= 0`),
  while the classifier with coefficients zero predicts the first (`scores > 0`), so its accuracy is that of another model (C147).
* Ties between candidates, which are common for accuracy, are decided by the lexicographic order of the supports: two features
  may be preferred to a single one that is as good, depending on the order of the columns (C148).
* Without penalty a multinomial fit has a family of solutions, one for every number added to the coefficients
  of a feature in all classes.  Which one is returned is decided by the starting vector; without intercepts
  the coefficients of the last feature sum to the sum of the class intercepts over the classes, those of the
  others to zero (C149).
* A candidate whose score is NaN is chosen before all others, so a further penalty or `stability_selection`
  value can make the choice worse (C150).

## 5. Testing the theorems

`seeded/LOG.jsonl` lists wrong programs: one line per edit of a model definition, with the theorems (and the
number of examples) that no longer go through, and what was tightened when an edit went unnoticed.
