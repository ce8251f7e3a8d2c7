{
 "claims": [
  {
   "property": "C01",
   "status": "proved",
   "theorems": [
    "C01_thresholds_exact",
    "C01_error_kind",
    "C01_one_is_all",
    "C01_infinite"
   ],
   "note": "Float arithmetic is a parameter (FloatSem); Sane says in-range products round monotonically."
  },
  {
   "property": "C02",
   "status": "partial",
   "theorems": [
    "C02_negation",
    "C02_nonempty_partial"
   ],
   "note": "False: an empty list/array is accepted and yields no threshold. Partial: every other accepted value yields at least one."
  },
  {
   "property": "C03",
   "status": "partial",
   "theorems": [
    "C03_intersection_partial",
    "C03_negation",
    "C03_single_pair"
   ],
   "note": "False when there is a single (threshold, parameter) pair or a single feature, because of squeeze before unique. Partial covers all other shapes; C03_single_pair says what a single pair gives."
  },
  {
   "property": "C04",
   "status": "partial",
   "theorems": [
    "C04_negation",
    "C04_negation_feature",
    "C04_shape_partial"
   ],
   "note": "Same defect as C03."
  },
  {
   "property": "C05",
   "status": "proved",
   "theorems": [
    "C05_monotone",
    "C05_monotone_output",
    "C05_default_is_intersection"
   ],
   "note": ""
  },
  {
   "property": "C06",
   "status": "partial",
   "theorems": [
    "C06_union_over_classes_partial",
    "C06_separate_partial",
    "C06_negation"
   ],
   "note": "Holds with at least two (threshold, parameter) pairs; single-pair witness raises ValueError. Without shared supports the candidates are per coefficient."
  },
  {
   "property": "C07",
   "status": "proved",
   "theorems": [
    "C07_concat",
    "C07_exactly_once",
    "C07_contiguous",
    "C07_balanced",
    "C07_pairs",
    "C07_used"
   ],
   "note": "np.array_split and the task lists of both phases."
  },
  {
   "property": "C08",
   "status": "proved",
   "theorems": [
    "C08_distributed_eq_serial"
   ],
   "note": "Solver, scoring and data are parameters; GoodIntercept says that the fitted intercept is a well-formed non-0-d float array."
  },
  {
   "property": "C09",
   "status": "partial",
   "theorems": [
    "C09_distributed_eq_serial_partial",
    "C09_negation"
   ],
   "note": "False for warm-starting solvers when there are more processes than selection bootstraps (witness with 3 processes). Partial: any number of processes for solvers without history."
  },
  {
   "property": "C10",
   "status": "proved",
   "theorems": [
    "C10_all_processes_agree"
   ],
   "note": "Any number of processes, any solver."
  },
  {
   "property": "C100",
   "status": "proved",
   "theorems": [
    "C100_forwarded",
    "C100_target",
    "C100_seed",
    "C100_defaults",
    "C100_invalid"
   ],
   "note": ""
  },
  {
   "property": "C101",
   "status": "partial",
   "theorems": [
    "C101_partial",
    "C101_negation"
   ],
   "note": "'cd' and 'pyc' proved; every other value is accepted (negation)"
  },
  {
   "property": "C102",
   "status": "partial",
   "theorems": [
    "C102_partial",
    "C102_negation"
   ],
   "note": "set_params(tol=...) raises (negation)"
  },
  {
   "property": "C103",
   "status": "proved",
   "theorems": [
    "C103_first"
   ],
   "note": ""
  },
  {
   "property": "C104",
   "status": "proved",
   "theorems": [
    "C104_binary",
    "C104_multinomial"
   ],
   "note": ""
  },
  {
   "property": "C105",
   "status": "partial",
   "theorems": [
    "C105_partial",
    "C105_signs_partial",
    "C105_first",
    "C105_negation"
   ],
   "note": "proved for labels 0..k-1 and for two labels of which the larger is 1; false for other labels, where C105_first says what is computed"
  },
  {
   "property": "C106",
   "status": "partial",
   "theorems": [
    "C106_labels",
    "C106_rename_partial",
    "C106_negation",
    "C106_sign"
   ],
   "note": "predicted labels proved; renaming proved for scores that ignore the labels (accuracy); false for the log score"
  },
  {
   "property": "C107",
   "status": "partial",
   "theorems": [
    "C107_positions",
    "C107_partial",
    "C107_negation"
   ],
   "note": "proved for labels 0..k-1; false for others, where positions are predicted"
  },
  {
   "property": "C108",
   "status": "partial",
   "theorems": [
    "C108_dict_partial",
    "C108_none",
    "C108_balanced",
    "C108_negation"
   ],
   "note": "'balanced' and no class weights proved for all labels; dictionaries for labels 0..k-1; false for others"
  },
  {
   "property": "C109",
   "status": "partial",
   "theorems": [
    "C109_binary_partial",
    "C109_multinomial_partial",
    "C109_poisson_partial",
    "C109_unpenalised_partial",
    "C109_negation"
   ],
   "note": "objective and gradient are those of the repeated rows up to a factor, with the penalty rescaled; same minimisers without penalty; false with a penalty"
  },
  {
   "property": "C11",
   "status": "proved",
   "theorems": [
    "C11_no_deadlock",
    "C11_every_schedule_same_outcome"
   ],
   "note": "All schedules of blocking collectives; no schedule is infinite, none is stuck unless a process raised."
  },
  {
   "property": "C110",
   "status": "partial",
   "theorems": [
    "C110_selection",
    "C110_estimation_partial",
    "C110_raises",
    "C110_accepts",
    "C110_negation"
   ],
   "note": "serial fit; selection bootstraps with two or more features, estimation bootstraps if a candidate has two features; false for candidates of one feature"
  },
  {
   "property": "C111",
   "status": "partial",
   "theorems": [
    "C111_supports_partial",
    "C111_shared_partial",
    "C111_negation"
   ],
   "note": "Exact for at least two (threshold, parameter) pairs and at least two coefficients; false for one pair (a vector instead of a matrix, because of squeeze)."
  },
  {
   "property": "C112",
   "status": "proved",
   "theorems": [
    "C112_moves",
    "C112_exact",
    "C112_unknown"
   ],
   "note": "Exact arithmetic (linearly ordered fields)."
  },
  {
   "property": "C113",
   "status": "partial",
   "theorems": [
    "C113_uoi_cur",
    "C113_cur",
    "C113_features_partial",
    "C113_negation",
    "C113_nmf"
   ],
   "note": "The number of features is not checked by the CUR classes: a matrix is accepted exactly if it has the selected columns (C113_negation gives the witness). UoI_NMF checks its data (C61)."
  },
  {
   "property": "C114",
   "status": "proved",
   "theorems": [
    "C114_ray",
    "C114_quadratic"
   ],
   "note": "Exact arithmetic (linearly ordered fields) with a square root that is exact on squares."
  },
  {
   "property": "C115",
   "status": "partial",
   "theorems": [
    "C115_r2",
    "C115_constant",
    "C115_criteria",
    "C115_poisson",
    "C115_poisson_count",
    "C115_multinomial",
    "C115_binary",
    "C115_negation"
   ],
   "note": "With fit_intercept=False the candidate is still scored with an intercept, which the returned model does not have (C115_negation)."
  },
  {
   "property": "C116",
   "status": "proved",
   "theorems": [
    "C116_bound",
    "C116_ends",
    "C116_armijo",
    "C116_accuracy"
   ],
   "note": "Exact arithmetic; the constants are the reachStep and descent of Spec/Converge.lean."
  },
  {
   "property": "C117",
   "status": "proved",
   "theorems": [
    "C117_codes",
    "C117_fmin"
   ],
   "note": "Exact arithmetic."
  },
  {
   "property": "C118",
   "status": "proved",
   "theorems": [
    "C118_fmin"
   ],
   "note": "Exact arithmetic."
  },
  {
   "property": "C119",
   "status": "proved",
   "theorems": [
    "C119_rotation",
    "C119_reorder"
   ],
   "note": "Exact arithmetic."
  },
  {
   "property": "C12",
   "status": "partial",
   "theorems": [
    "C12_negation",
    "C12_serial_partial"
   ],
   "note": "False for every number of processes >= 2: process 0 raises, the others wait for ever. Partial: the serial fit raises."
  },
  {
   "property": "C120",
   "status": "partial",
   "theorems": [
    "C120_poisson",
    "C120_poisson_rows",
    "C120_logistic_partial",
    "C120_logistic_rows",
    "C120_logistic_negation"
   ],
   "note": "Exact arithmetic. Poisson is fully covered, with and without intercept, standardisation and warm start. The logistic fit needs an intercept and starting coefficients for all features; without an intercept it is false (negation): a multinomial fit starts with the class intercepts in the column of the last feature. The order of the samples is covered with and without intercept."
  },
  {
   "property": "C121",
   "status": "partial",
   "theorems": [
    "C121_supports_partial",
    "C121_estimates_partial",
    "C121_coef_partial",
    "C121_negation"
   ],
   "note": "False when candidates tie in a bootstrap: the lexicographically first mask is chosen (C121_negation). Also missing: a single threshold-parameter pair (C111) and a support per class."
  },
  {
   "property": "C122",
   "status": "partial",
   "theorems": [
    "C122_plain",
    "C122_standardized_partial",
    "C122_shift",
    "C122_warm_partial",
    "C122_negation",
    "C122_warm_negation"
   ],
   "note": "True without standardize. With standardize the intercept is not corrected for the means (C122_negation) and each warm start divides the start by the standard deviations again (C122_warm_negation)."
  },
  {
   "property": "C123",
   "status": "partial",
   "theorems": [
    "C123_rejected",
    "C123_failed_partial",
    "C123_stuck",
    "C123_shapes",
    "C123_negation",
    "C123_zero_negation",
    "C123_decision"
   ],
   "note": "coef_ survives a failed fit, intercept_ is replaced by zeros (C123_negation); after a fit with fewer classes fails, all later warm-started fits raise (C123_stuck). C=0 is accepted and ends in a division by zero (C123_zero_negation)."
  },
  {
   "property": "C124",
   "status": "partial",
   "theorems": [
    "C124_agrees",
    "C124_rejected",
    "C124_kept_partial",
    "C124_late",
    "C124_grid",
    "C124_negation",
    "C124_constant_negation"
   ],
   "note": "Proved for models without classes_ and for data with the classes of the earlier fit, when the refit of the intercept does not raise. False of the classifier: classes_ is replaced before anything is checked, so after a failed fit the old coefficients predict the new labels; and a fit on one class raises after coef_ has been set to zero. A failed first fit also decides the grid of the next (C124_grid)."
  },
  {
   "property": "C125",
   "status": "partial",
   "theorems": [
    "C125_sizes",
    "C125_best_partial",
    "C125_constant",
    "C125_single",
    "C125_small",
    "C125_negation"
   ],
   "note": "Proved when the response varies on the held-out rows. False otherwise: for a single held-out row r2_score is NaN for every candidate and np.argmax takes the first one (so with the default estimation_frac and at most ten samples the first candidate is always chosen, often the one without features, C125_small); for equal held-out responses only exact candidates are distinguished."
  },
  {
   "property": "C126",
   "status": "partial",
   "theorems": [
    "C126_settings",
    "C126_assign",
    "C126_alike",
    "C126_roundtrip_partial",
    "C126_linesearch_negation",
    "C126_fmin",
    "C126_overflow",
    "C126_shape_partial",
    "C126_size",
    "C126_reshape",
    "C126_falsy_negation",
    "C126_message_negation",
    "C126_defaults_negation",
    "C126_fresh_negation"
   ],
   "note": "False of the code in six places: linesearch reads as a number that cannot be assigned again; a scalar x0 gives an array of shape (1,); a progress callable that counts as false is never called; the TypeError about progress names the type of f; the default of m is 10, not the documented 6; a new object has delta 1e-5 and max_linesearch 40, documented as 0 and 20."
  },
  {
   "property": "C127",
   "status": "partial",
   "theorems": [
    "C127_snr_partial",
    "C127_null_negation",
    "C127_single_negation",
    "C127_negative",
    "C127_zero",
    "C127_sample",
    "C127_logits",
    "C127_support_negation",
    "C127_two"
   ],
   "note": "Proved for positive snr. False: without informative features or with one sample there is no noise at all; a negative snr is accepted and gives NaN, and snr=0 gives infinite responses or NaN. make_classification standardises each sample (not each feature), so the features of a sample sum to zero and any coefficients can be replaced by others without a zero; with two features all samples are (1,-1) or (-1,1)."
  },
  {
   "property": "C128",
   "status": "partial",
   "theorems": [
    "C128_image_partial",
    "C128_pixels",
    "C128_readonly_negation"
   ],
   "note": "False when the file may be read but not written to: it is opened with mode 'r+'."
  },
  {
   "property": "C129",
   "status": "partial",
   "theorems": [
    "C129_exact_partial",
    "C129_heldout_negation",
    "C129_missing",
    "C129_best"
   ],
   "note": "Proved when the held-out rows of a majority of the bootstraps tell every candidate from the truth. False otherwise: a smaller candidate exact on the held-out rows wins the tie because it comes first. C129_best: each bootstrap takes the candidate with the smallest squared error on the test rows, the candidate without features predicting the mean training response."
  },
  {
   "property": "C13",
   "status": "proved",
   "theorems": [
    "C13_estimates_of_candidates",
    "C13_zero_outside_support"
   ],
   "note": "any number of processes; zero outside a per-coefficient support additionally uses that the masked solver returns zeros (C47)"
  },
  {
   "property": "C130",
   "status": "partial",
   "theorems": [
    "C130_binary_partial",
    "C130_negation",
    "C130_interpolating",
    "C130_pgtol",
    "C130_penalised",
    "C130_l1",
    "C130_multi_partial",
    "C130_multi_penalised",
    "C130_multi_l1",
    "C130_unique",
    "C130_l1_unique",
    "C130_multi_unique",
    "C130_multi_l1_unique"
   ],
   "note": "False for separable samples, e.g. when the support has at least as many features as there are samples: no solution exists, and the stopping test is met by coefficients as large as one likes. Solutions, where they exist, agree in the probabilities of the training samples."
  },
  {
   "property": "C131",
   "status": "partial",
   "theorems": [
    "C131_partial",
    "C131_negation",
    "C131_interpolating",
    "C131_penalised",
    "C131_unique"
   ],
   "note": "exact criterion for the existence of an unpenalised solution; false for counts with a receding direction (C131_negation). Penalised fits always have one; predictions of solutions are unique."
  },
  {
   "property": "C132",
   "status": "partial",
   "theorems": [
    "C132_best_partial",
    "C132_estimate_partial",
    "C132_exact",
    "C132_unknown",
    "C132_constant",
    "C132_recovery_partial",
    "C132_negation"
   ],
   "note": "The trade-off is exact when no candidate is exact on the training rows (for the scores and for the estimate of a bootstrap, which pays for the features it selects), and noise-free recovery holds when the training rows tell the candidates apart. False for exact candidates: the score is +inf whatever the number of features, so the first exact candidate wins."
  },
  {
   "property": "C133",
   "status": "partial",
   "theorems": [
    "C133_expected",
    "C133_select_partial",
    "C133_plain",
    "C133_uoi_partial",
    "C133_all_bootstraps",
    "C133_negation_select",
    "C133_negation"
   ],
   "note": "False for CUR with its default c on data with at most 20 features, and for UoI_CUR in general, where all bootstraps have to agree."
  },
  {
   "property": "C134",
   "status": "partial",
   "theorems": [
    "C134_quadratic",
    "C134_smooth_partial",
    "C134_negation"
   ],
   "note": "Proved for quadratics of any condition number and for objectives with 2.1 (1-wolfe) L <= (1-ftol) mu. False for strongly convex smooth objectives in general: the search halves and multiplies by 2.1 without bracketing and can pass over the acceptable lengths (negation, with 100 trials). Exact arithmetic."
  },
  {
   "property": "C135",
   "status": "partial",
   "theorems": [
    "C135_argument",
    "C135_fit",
    "C135_repeat_partial",
    "C135_negation",
    "C135_bootstraps",
    "C135_more_partial"
   ],
   "note": "Order of the thresholds: conversion of the argument and the whole fit on any number of processes, in full. Repetition: all cases with at least two thresholds both times or at least two penalties; negation with a single threshold and a single penalty, where repeating the threshold turns the vector of C03 into a matrix. Order of bootstraps and penalties: in full for the intersection. More thresholds or penalties: all cases but the single pair and the single coefficient."
  },
  {
   "property": "C136",
   "status": "partial",
   "theorems": [
    "C136_bound_partial",
    "C136_range_bound",
    "C136_ends",
    "C136_codes",
    "C136_accuracy",
    "C136_fmin_partial",
    "C136_negation"
   ],
   "note": "Bound on the iterations (independent of max_linesearch if all variables are penalised; otherwise through the shortest step that max_linesearch allows), termination, possible codes and accuracy, with any range of penalised variables, for the C function and for fmin_lbfgs, in exact arithmetic. That the call finds the minimiser is false: for every max_linesearch there is a quadratic objective with the same constants and a starting point from which a line search fails where the slope is at least 1 (C136_negation). Missing: bounds in floating point."
  },
  {
   "property": "C137",
   "status": "proved",
   "theorems": [
    "C137_mode",
    "C137_unique"
   ],
   "note": "Real arithmetic. The distribution is defined by its probabilities in the specification."
  },
  {
   "property": "C138",
   "status": "partial",
   "theorems": [
    "C138_negation",
    "C138_intercept_partial"
   ],
   "note": "False (C138_negation). The update of the intercept never goes below the best intercept for the current coefficients, and from above it the objective does not increase and the distance is squared (C138_intercept_partial). The surrogate of an iteration never increases (C40)."
  },
  {
   "property": "C139",
   "status": "proved",
   "theorems": [
    "C139_fixed_iff",
    "C139_same_predictions",
    "C139_ignored",
    "C139_scale",
    "C139_none"
   ],
   "note": "Cold start; real arithmetic. That the loop reaches a fixed point is not claimed (see C138)."
  },
  {
   "property": "C14",
   "status": "proved",
   "theorems": [
    "C14_coef_is_median",
    "C14_between_extremes",
    "C14_majority_zero"
   ],
   "note": "statements are about coef_ before undoing standardization"
  },
  {
   "property": "C140",
   "status": "partial",
   "theorems": [
    "C140_vectors",
    "C140_dot",
    "C140_round",
    "C140_padded_partial",
    "C140_sign_partial",
    "C140_negation"
   ],
   "note": "False for the sign test of the line search when a derivative is zero, and for an orthantwise_end between n and the next multiple of eight, which only the portable build rejects. Partial: all vector routines on padded vectors; the sign test for nonzero derivatives."
  },
  {
   "property": "C141",
   "status": "partial",
   "theorems": [
    "C141_partial",
    "C141_overflow",
    "C141_large_counts",
    "C141_constant_feature",
    "C141_negation",
    "C141_add",
    "C141_mul",
    "C141_div",
    "C141_functions",
    "C141_compare"
   ],
   "note": "False of the code: the first iteration sets the intercept to the mean of the counts less one, so that standardized data with a mean above 710 gives NaN; a feature constant in the data gives 0/0 without ridge penalty. Proved: in range and with nonzero features the floating point solver is the exact one; beyond it exactly what becomes NaN. The operations on infinities are limits of those on reals, NaN where there is none (C141_add and following)."
  },
  {
   "property": "C142",
   "status": "partial",
   "theorems": [
    "C142_partial",
    "C142_default",
    "C142_accepts",
    "C142_never_ends",
    "C142_limited",
    "C142_negation"
   ],
   "note": "Proved for the default line search without penalty and for every penalised problem. False for the Armijo, Wolfe and strong Wolfe searches without penalty: they accept a NaN trial, and the call then never ends unless max_iterations is set, in which case a vector of NaN is returned with a warning (C142_accepts, C142_never_ends, C142_limited, C142_negation)."
  },
  {
   "property": "C143",
   "status": "partial",
   "theorems": [
    "C143_partial",
    "C143_rounded_up",
    "C143_default",
    "C143_ends",
    "C143_cur",
    "C143_negation"
   ],
   "note": "False: seven tenths of ten samples train on six (C143_negation, for every rounding to nearest). Proved: within one sample and the rounding error always, exact away from the integers (C143_partial), exact for every fraction from a half up that is not rounded down when read (C143_rounded_up), which includes the defaults 0.9 and 0.8 for every number of samples (C143_default), 0 and 1 (C143_ends), CUR (C143_cur). Fewer than 2^50 samples; train_test_split is external and its arithmetic is modelled from scikit-learn's documented ceil(test_size * n)."
  },
  {
   "property": "C144",
   "status": "partial",
   "theorems": [
    "C144_classes",
    "C144_two",
    "C144_intercepts",
    "C144_no_intercept",
    "C144_seed",
    "C144_succeeds",
    "C144_failures",
    "C144_negation"
   ],
   "note": "False for n_classes=1, whose labels are 0 and 1, and for NumPy integers as random_state, which raise AttributeError (C144_negation). Proved for two and for more classes: shapes, range of the labels, the probabilities each label is drawn from (positive, summing to one), the intercepts of maximum zero and that their shift changes no probability, Python integer seeds; success for two or more features and two samples (one for more than two classes), and the errors otherwise. Probabilities are ideal real numbers; the distribution of the generator itself is external."
  },
  {
   "property": "C145",
   "status": "partial",
   "theorems": [
    "C145_partial",
    "C145_exact",
    "C145_all",
    "C145_scalar",
    "C145_negation"
   ],
   "note": "False: 0.9 of the default 24 bootstraps admits features selected in 21 (truncation), and 0.57 of 100 admits 56 (rounding), for every rounding to nearest. Proved: every feature in the proportion is admitted and none that is more than one bootstrap short (C145_partial); exact for whole numbers of bootstraps and proportions not rounded down, so for 1/2, 3/4 and the default 1 (C145_exact, C145_all). At most 2^50 bootstraps over the denominator; more than one pair of proportion and penalty and more than one feature, because of C03 and C04."
  },
  {
   "property": "C146",
   "status": "partial",
   "theorems": [
    "C146_partial",
    "C146_exact",
    "C146_accepted",
    "C146_negation"
   ],
   "note": "False: 0.9 of 24 bootstraps admits columns drawn in 21 (truncation), 0.57 of 100 admits 56 (rounding), for every rounding to nearest. Proved: every column in the proportion is selected and none that is more than one bootstrap short of it for every rank; exact for whole numbers of bootstraps and proportions not rounded down; less than one bootstrap is refused, two or more accepted."
  },
  {
   "property": "C147",
   "status": "partial",
   "theorems": [
    "C147_partial",
    "C147_masked",
    "C147_odds",
    "C147_empty",
    "C147_negation"
   ],
   "note": "False for the candidate without features when two classes are equally frequent in the bootstrap: it predicts the second class, the classifier it stands for the first. Proved: both classifiers predict the first of their most probable classes, probabilities are distributions with the decision values as log-odds (C147_partial, C147_masked, C147_odds), the candidate without features agrees in all other cases (C147_empty). scikit-learn's predict and predict_proba (0.24) are modelled; real arithmetic."
  },
  {
   "property": "C148",
   "status": "partial",
   "theorems": [
    "C148_partial",
    "C148_accuracy",
    "C148_empty",
    "C148_negation"
   ],
   "note": "False for candidates of which none is part of the other: features 2 and 3 win against feature 1 alone. Proved: the choice by accuracy is the first most accurate candidate; with any score without NaN, a candidate that is part of the chosen one has a lower score, and the candidate without features loses only to a higher score. More than one pair of threshold and penalty and more than one feature, because of C03 and C04."
  },
  {
   "property": "C149",
   "status": "partial",
   "theorems": [
    "C149_binary",
    "C149_partial",
    "C149_classes",
    "C149_shift",
    "C149_start",
    "C149_warm",
    "C149_penalised",
    "C149_negation"
   ],
   "note": "True of two classes and of a finite C. False of three or more classes without penalty: adding a number to the coefficients of a feature in all classes gives another solution (C149_shift, C149_negation). The starting vector decides which one is returned: the sums over the classes do not move (C149_start, C149_warm), and from one starting vector the solution is determined (C149_partial). SciPy's optimiser enters as an assumption (its steps are combinations of gradients)."
  },
  {
   "property": "C15",
   "status": "proved",
   "theorems": [
    "C15_chosen_is_first_maximum"
   ],
   "note": ""
  },
  {
   "property": "C150",
   "status": "partial",
   "theorems": [
    "C150_partial",
    "C150_accuracy",
    "C150_negation"
   ],
   "note": "Proved for scores without NaN and more than one pair of threshold and penalty. False with NaN: np.argmax takes a further candidate whose score is NaN instead of the best one (C150_negation)."
  },
  {
   "property": "C151",
   "status": "proved",
   "theorems": [
    "C151_unique",
    "C151_penalised",
    "C151_dependent",
    "C151_iff"
   ],
   "note": "About exact minimisers of the objective handed to the optimiser, without sample weights, in exact arithmetic."
  },
  {
   "property": "C16",
   "status": "partial",
   "theorems": [
    "C16_bootstrap_local_partial",
    "C16_poisson_partial",
    "C16_negation",
    "C16_start_units"
   ],
   "note": "false when a bootstrap has an all-zero Poisson response: -inf * 0. is NaN; proved for solvers whose reachable states stay finite"
  },
  {
   "property": "C17",
   "status": "proved",
   "theorems": [
    "C17_selection",
    "C17_estimates",
    "C17_scores"
   ],
   "note": ""
  },
  {
   "property": "C18",
   "status": "partial",
   "theorems": [
    "C18_linear_partial",
    "C18_poisson_partial",
    "C18_negation"
   ],
   "note": "Proved for the linear and Poisson estimators; false for the classifier with an intercept (log_loss raises ValueError on a single label), witnessed by C18_negation. Over the reals, at least one row."
  },
  {
   "property": "C19",
   "status": "partial",
   "theorems": [
    "C19_attributes_partial",
    "C19_constant_partial",
    "C19_negation"
   ],
   "note": "False after a constant response: supports_ and scores_ of the earlier fit remain. Proved from arbitrary objects for non-constant responses with a grid of their own; coefficients and intercept always."
  },
  {
   "property": "C20",
   "status": "partial",
   "theorems": [
    "C20_lasso_partial",
    "C20_first_fit_partial",
    "C20_negation",
    "C20_negation_grids"
   ],
   "note": "Holds for the Lasso after every history and for every first fit; false for the elastic-net, logistic and Poisson estimators, whose first grid is kept."
  },
  {
   "property": "C21",
   "status": "partial",
   "theorems": [
    "C21_python_int_partial",
    "C21_ranks_partial",
    "C21_negation"
   ],
   "note": "Holds for Python integers; with a NumPy integer all splits of a phase are copies."
  },
  {
   "property": "C22",
   "status": "partial",
   "theorems": [
    "C22_elastic_net_grid_partial",
    "C22_largest_lambda_is_critical",
    "C22_negation",
    "C22_lasso_partial"
   ],
   "note": "Layout, strict decrease and criticality proved for at least two lambdas; with n_lambdas=1 the only value is eps times the largest useful one."
  },
  {
   "property": "C23",
   "status": "proved",
   "theorems": [
    "C23_linear_predictions"
   ],
   "note": "All combinations of flags under which scaling is undone; one response column."
  },
  {
   "property": "C24",
   "status": "partial",
   "theorems": [
    "C24_negation",
    "C24_intercept_partial",
    "C24_no_intercept_partial"
   ],
   "note": "False with an intercept: the correction has the wrong sign and factor. Exact condition proved; holds without intercept."
  },
  {
   "property": "C25",
   "status": "partial",
   "theorems": [
    "C25_intercept_partial",
    "C25_negation"
   ],
   "note": "Holds with an intercept, including an intercept of minus infinity; false without one because the scaler always centres."
  },
  {
   "property": "C26",
   "status": "proved",
   "theorems": [
    "C26_units"
   ],
   "note": "Any deterministic selection/estimation algorithm; features constant in training must be constant at the new point too."
  },
  {
   "property": "C27",
   "status": "proved",
   "theorems": [
    "C27_linear",
    "C27_poisson",
    "C27_poisson_no_features"
   ],
   "note": "Residuals sum to zero and least squares; Poisson mean match and maximum likelihood, including the all-zero response."
  },
  {
   "property": "C28",
   "status": "partial",
   "theorems": [
    "C28_negation",
    "C28_arguments_partial"
   ],
   "note": "The Poisson constructor drops standardize (negation); the other arguments are forwarded."
  },
  {
   "property": "C29",
   "status": "partial",
   "theorems": [
    "C29_prefers_likelihood",
    "C29_prefers_small_support_partial",
    "C29_negation",
    "C29_aicc_correction",
    "C29_score_is_negated_criterion"
   ],
   "note": "Higher likelihood preferred always; smaller support preferred for AIC, BIC and AICc away from n<=k+1; false for AICc there."
  },
  {
   "property": "C30",
   "status": "proved",
   "theorems": [
    "C30_profile_likelihood"
   ],
   "note": ""
  },
  {
   "property": "C31",
   "status": "proved",
   "theorems": [
    "C31_poisson_likelihood",
    "C31_truth_is_best",
    "C31_zero_prediction",
    "C31_models"
   ],
   "note": ""
  },
  {
   "property": "C32",
   "status": "partial",
   "theorems": [
    "C32_negation",
    "C32_accepted_can_be_scored_partial",
    "C32_targets"
   ],
   "note": "UoI_Poisson accepts acc and cannot score it."
  },
  {
   "property": "C33",
   "status": "proved",
   "theorems": [
    "C33_softmax_distribution"
   ],
   "note": ""
  },
  {
   "property": "C34",
   "status": "proved",
   "theorems": [
    "C34_sigmoid_logistic"
   ],
   "note": ""
  },
  {
   "property": "C35",
   "status": "partial",
   "theorems": [
    "C35_negation",
    "C35_names_partial"
   ],
   "note": "Every construction adds a handler, so messages multiply (negation); names are distinct per rank."
  },
  {
   "property": "C36",
   "status": "partial",
   "theorems": [
    "C36_bcast_partial",
    "C36_unsupported",
    "C36_negation",
    "C36_negation_arrays",
    "C36_invalid_hangs",
    "C36_invalid"
   ],
   "note": "False for root other than 0 (the buffer is rebuilt on rank != 0); partial: root 0."
  },
  {
   "property": "C37",
   "status": "partial",
   "theorems": [
    "C37_gatherv_partial",
    "C37_negation"
   ],
   "note": "False for root other than 0; partial: root 0, any row counts."
  },
  {
   "property": "C38",
   "status": "proved",
   "theorems": [
    "C38_load_data",
    "C38_unsupported"
   ],
   "note": "Any root, any number of processes."
  },
  {
   "property": "C39",
   "status": "proved",
   "theorems": [
    "C39_unique_minimiser",
    "C39_shape"
   ],
   "note": "real arithmetic"
  },
  {
   "property": "C40",
   "status": "proved",
   "theorems": [
    "C40_coordinate_minimises",
    "C40_sweep_decreases"
   ],
   "note": "the denominator must be positive (a nonzero entry in the feature or a ridge penalty), else NumPy divides by zero"
  },
  {
   "property": "C41",
   "status": "proved",
   "theorems": [
    "C41_fixed_points_optimal",
    "C41_active_fixed_points"
   ],
   "note": "real arithmetic; the second theorem is the version for the shortened sweeps of later iterations"
  },
  {
   "property": "C42",
   "status": "partial",
   "theorems": [
    "C42_partial",
    "C42_negation",
    "C42_negation_witness"
   ],
   "note": "false: with warm_start, zero coefficients stay zero for all data, and a nonzero start raises ValueError with two samples or more"
  },
  {
   "property": "C43",
   "status": "proved",
   "theorems": [
    "C43_value",
    "C43_gradient",
    "C43_gradient_no_intercept"
   ],
   "note": "all sample weights and L2 penalties"
  },
  {
   "property": "C44",
   "status": "proved",
   "theorems": [
    "C44_largest_lambda_is_critical",
    "C44_largest_lambda_no_intercept",
    "C44_grid"
   ],
   "note": "Global optimality of the zero model iff lambda is at least the largest grid value; with and without intercept."
  },
  {
   "property": "C45",
   "status": "partial",
   "theorems": [
    "C45_partial",
    "C45_negation"
   ],
   "note": "false without an intercept: predict_mean raises NotFittedError, or uses the intercept of an earlier constant fit"
  },
  {
   "property": "C46",
   "status": "proved",
   "theorems": [
    "C46_binary_value",
    "C46_binary_gradient",
    "C46_binary_gradient_no_intercept",
    "C46_multinomial_value",
    "C46_multinomial_gradient",
    "C46_multinomial_gradient_no_intercept",
    "C46_regrouped",
    "C46_restricted"
   ],
   "note": "Value and gradient, binary and multinomial, with and without intercept, with mask; and that regrouping and restricting to the unmasked entries keep the gradient exact."
  },
  {
   "property": "C47",
   "status": "proved",
   "theorems": [
    "C47_masked_zero",
    "C47_l1"
   ],
   "note": "Without L1 penalty for an arbitrary optimiser; with L1 penalty for the library's own optimiser, as modelled in Lbfgs and LbfgsPy."
  },
  {
   "property": "C48",
   "status": "proved",
   "theorems": [
    "C48_binary",
    "C48_multinomial"
   ],
   "note": ""
  },
  {
   "property": "C49",
   "status": "partial",
   "theorems": [
    "C49_multinomial",
    "C49_binary_partial",
    "C49_negation",
    "C49_negation_no_intercept"
   ],
   "note": "True for multinomial problems with an intercept; for every binary problem with centred features the largest penalty is too small by the factor one minus the frequency of class one; without an intercept the last feature is ignored."
  },
  {
   "property": "C50",
   "status": "partial",
   "theorems": [
    "C50_partial",
    "C50_stops",
    "C50_negation"
   ],
   "note": "True with an intercept; false without one because the last coefficient is not looked at."
  },
  {
   "property": "C51",
   "status": "partial",
   "theorems": [
    "C51_valid",
    "C51_drawn",
    "C51_monotone",
    "C51_sorted",
    "C51_infinite_negation",
    "C51_nonpositive"
   ],
   "note": "Proved for finite c; with an infinite c (which UoI_CUR accepts) columns of zero leverage are selected too, and with minus infinity exactly those."
  },
  {
   "property": "C52",
   "status": "partial",
   "theorems": [
    "C52_partial",
    "C52_negation"
   ],
   "note": "False: random_state is ignored and an unseeded generator is used."
  },
  {
   "property": "C53",
   "status": "proved",
   "theorems": [
    "C53_stable",
    "C53_monotone",
    "C53_threshold"
   ],
   "note": ""
  },
  {
   "property": "C54",
   "status": "partial",
   "theorems": [
    "C54_partial",
    "C54_negation",
    "C54_plain",
    "C54_plain_ok"
   ],
   "note": "True when a column was selected (and always for the ordinary CUR); false for an empty selection with more than one sample."
  },
  {
   "property": "C55",
   "status": "partial",
   "theorems": [
    "C55_partial",
    "C55_errors",
    "C55_negation"
   ],
   "note": "Exact acceptance condition for all arguments except arrays of ranks with several axes, which are accepted and make fit fail later."
  },
  {
   "property": "C56",
   "status": "partial",
   "theorems": [
    "C56_partial",
    "C56_negation"
   ],
   "note": "False for every integer seed: all bootstraps are identical; true for generator objects and the global generator."
  },
  {
   "property": "C57",
   "status": "partial",
   "theorems": [
    "C57_partial",
    "C57_nonneg",
    "C57_methods",
    "C57_unit",
    "C57_negation"
   ],
   "note": "Components are the normalised consensus of the members of each cluster for contiguous labels (DBSCAN); nonnegative for every clustering. False for clusterers with other negative labels: a zero row appears."
  },
  {
   "property": "C58",
   "status": "proved",
   "theorems": [
    "C58_range",
    "C58_symmetric",
    "C58_identical",
    "C58_rescaled",
    "C58_permuted"
   ],
   "note": "Over the reals, for all numbers of bases and features."
  },
  {
   "property": "C59",
   "status": "partial",
   "theorems": [
    "C59_partial",
    "C59_undefined",
    "C59_one_bootstrap",
    "C59_negation"
   ],
   "note": "All finite dissimilarity tables. With undefined ones the first rank that has one is chosen (negation); with one bootstrap the first rank."
  },
  {
   "property": "C60",
   "status": "partial",
   "theorems": [
    "C60_partial",
    "C60_negation",
    "C60_negation_set_params"
   ],
   "note": "False: ranks=None fails on fit, get_params and set_params always raise AttributeError. Proved: with ranks given the fit succeeds when the solvers do."
  },
  {
   "property": "C61",
   "status": "partial",
   "theorems": [
    "C61_partial",
    "C61_unfitted",
    "C61_negation"
   ],
   "note": "Float data; integer data truncate the weights. Before fit an AttributeError (not NotFittedError) is raised."
  },
  {
   "property": "C62",
   "status": "proved",
   "theorems": [
    "C62_regression",
    "C62_count",
    "C62_supplied",
    "C62_no_intercept",
    "C62_classification"
   ],
   "note": "The random generator is any state transformer whose shuffle and permutation permute."
  },
  {
   "property": "C63",
   "status": "proved",
   "theorems": [
    "C63_min_norm",
    "C63_zero_iff",
    "C63_minimiser",
    "C63_necessary"
   ],
   "note": "Every ordered field; minimality of zero pseudo-gradient for convex objectives, necessity over the reals for differentiable ones."
  },
  {
   "property": "C64",
   "status": "proved",
   "theorems": [
    "C64_orthant"
   ],
   "note": "All trial points of the penalised line search."
  },
  {
   "property": "C65",
   "status": "partial",
   "theorems": [
    "C65_backtracking",
    "C65_owlqn_partial",
    "C65_owlqn_negation",
    "C65_morethuente"
   ],
   "note": "Proved for backtracking and More-Thuente. Penalised problems: sufficient decrease only; false for 'wolfe' there (curvature never checked)."
  },
  {
   "property": "C66",
   "status": "partial",
   "theorems": [
    "C66_partial",
    "C66_last",
    "C66_fmin_partial",
    "C66_negation",
    "C66_nan"
   ],
   "note": "Proved without penalty, with all variables penalised, or for convex objectives with ftol < 1; the result is always the last accepted point. False in general: an unpenalised variable of a non-convex objective (C66_negation), and NaN values accepted by the backtracking search (C66_nan)."
  },
  {
   "property": "C67",
   "status": "partial",
   "theorems": [
    "C67_limits",
    "C67_ends",
    "C67_warning_partial",
    "C67_negation"
   ],
   "note": "The limits, the ending of every run and the warning are proved for all objectives; the point returned at the limit is the last one, which is the best one under the conditions of C66_partial and not in general (C67_negation)."
  },
  {
   "property": "C68",
   "status": "proved",
   "theorems": [
    "C68_memory"
   ],
   "note": ""
  },
  {
   "property": "C69",
   "status": "proved",
   "theorems": [
    "C69_product",
    "C69_secant",
    "C69_positive",
    "C69_descent"
   ],
   "note": ""
  },
  {
   "property": "C70",
   "status": "partial",
   "theorems": [
    "C70_partial",
    "C70_warnings",
    "C70_negation"
   ],
   "note": "Progress values must be error codes and the delta-based stop must be off. False: the delta-based stop and progress value 1 raise KeyError, progress value 2 returns the point as if converged."
  },
  {
   "property": "C71",
   "status": "partial",
   "theorems": [
    "C71_code_partial",
    "C71_accepted_partial",
    "C71_before",
    "C71_owlqn",
    "C71_negation"
   ],
   "note": "Exact characterisation of the accepted parameters, errors before any evaluation. False of the documented ranges: orthantwise_start=N, ftol>=0.5, m=0 are accepted."
  },
  {
   "property": "C72",
   "status": "proved",
   "theorems": [
    "C72_agree",
    "C72_distinct",
    "C72_messages",
    "C72_texts",
    "C72_model"
   ],
   "note": "Both enumerations and the descriptions in the header transcribed."
  },
  {
   "property": "C73",
   "status": "partial",
   "theorems": [
    "C73_negation",
    "C73_completed_partial"
   ],
   "note": "false: length-one axes are squeezed away; what completes is characterised"
  },
  {
   "property": "C74",
   "status": "proved",
   "theorems": [
    "C74_response_units"
   ],
   "note": ""
  },
  {
   "property": "C75",
   "status": "partial",
   "theorems": [
    "C75_partial",
    "C75_negation"
   ],
   "note": "false: for every data set with mean response other than one, a cold coordinate-descent fit at or above the critical penalty stops after one sweep with intercept mean(y)-1, which is not optimal"
  },
  {
   "property": "C76",
   "status": "partial",
   "theorems": [
    "C76_partial",
    "C76_negation"
   ],
   "note": "False: the early stop zeroes the intercept too; true exactly when the classes are balanced."
  },
  {
   "property": "C77",
   "status": "partial",
   "theorems": [
    "C77_partial",
    "C77_negation"
   ],
   "note": "UoI_NMF_Base uses all parts it is given and UoI_NMF all nmf_ and db_ arguments except db_leaf_size. False: UoI_NMF ignores nmf, cluster, nnreg, cons_meth and db_leaf_size."
  },
  {
   "property": "C78",
   "status": "partial",
   "theorems": [
    "C78_partial",
    "C78_negation"
   ],
   "note": "Float data. False for integer data, whose weights are truncated."
  },
  {
   "property": "C79",
   "status": "partial",
   "theorems": [
    "C79_partial",
    "C79_responses",
    "C79_negation"
   ],
   "note": "Samples that are not constant, two or more samples. False: one feature gives NaN data, one sample with two classes raises TypeError."
  },
  {
   "property": "C80",
   "status": "partial",
   "theorems": [
    "C80_backtracking",
    "C80_owlqn",
    "C80_morethuente_partial",
    "C80_negation"
   ],
   "note": "Proved for both backtracking searches. False for More-Thuente: the last permitted trial is never accepted, so max_linesearch=1 always fails."
  },
  {
   "property": "C81",
   "status": "partial",
   "theorems": [
    "C81_partial",
    "C81_negation"
   ],
   "note": "False: exceptions are swallowed and count as the value 0; the outcome is characterised exactly."
  },
  {
   "property": "C82",
   "status": "partial",
   "theorems": [
    "C82_partial",
    "C82_negation"
   ],
   "note": "All arguments except min_step, whose message names max_step."
  },
  {
   "property": "C83",
   "status": "proved",
   "theorems": [
    "C83_unused"
   ],
   "note": ""
  },
  {
   "property": "C84",
   "status": "proved",
   "theorems": [
    "C84_criterion",
    "C84_gap",
    "C84_fmin"
   ],
   "note": ""
  },
  {
   "property": "C85",
   "status": "partial",
   "theorems": [
    "C85_descent_partial",
    "C85_codes_partial",
    "C85_negation"
   ],
   "note": "Proved without penalty for searches that enforce curvature, or armijo with a strictly monotone gradient; proved with penalty for a strictly monotone gradient. Penalised problems never give the error codes at all. False for armijo on a non-convex objective (C85_negation)."
  },
  {
   "property": "C86",
   "status": "proved",
   "theorems": [
    "C86_reports"
   ],
   "note": ""
  },
  {
   "property": "C87",
   "status": "proved",
   "theorems": [
    "C87_binary",
    "C87_multinomial",
    "C87_no_worse_binary",
    "C87_no_worse_multinomial"
   ],
   "note": "Real arithmetic."
  },
  {
   "property": "C88",
   "status": "proved",
   "theorems": [
    "C88_no_error",
    "C88_ends"
   ],
   "note": "Real arithmetic."
  },
  {
   "property": "C89",
   "status": "proved",
   "theorems": [
    "C89_near_optimal",
    "C89_no_worse"
   ],
   "note": "Real arithmetic; with standardize an intercept is fitted (see C25 for the other case)."
  },
  {
   "property": "C90",
   "status": "proved",
   "theorems": [
    "C90_no_error",
    "C90_ends"
   ],
   "note": "Explicit magnitude bound."
  },
  {
   "property": "C91",
   "status": "partial",
   "theorems": [
    "C91_partial",
    "C91_negation"
   ],
   "note": "False with standardize: the intercept is not converted to the units of the solver. Holds without standardize, or when the previous coefficients are orthogonal to the feature means."
  },
  {
   "property": "C92",
   "status": "partial",
   "theorems": [
    "C92_negation",
    "C92_partial"
   ],
   "note": "False after a fit to a response of zeros with warm_start: the optimiser accepts the infinite starting point at once. Holds when the previous intercept is not minus infinity."
  },
  {
   "property": "C93",
   "status": "partial",
   "theorems": [
    "C93_partial",
    "C93_negation"
   ],
   "note": "False without an intercept: intercept_ of an earlier fit to a constant response survives. Holds with an intercept, for both solvers."
  },
  {
   "property": "C94",
   "status": "proved",
   "theorems": [
    "C94_iterates"
   ],
   "note": "The meaning of a sweep is C40 and C41."
  },
  {
   "property": "C95",
   "status": "proved",
   "theorems": [
    "C95_response"
   ],
   "note": "The distribution of the response around the predictor is a parameter."
  },
  {
   "property": "C96",
   "status": "partial",
   "theorems": [
    "C96_partial",
    "C96_negation"
   ],
   "note": "False for NumPy integers as seeds (AttributeError); exact characterisation for all other seeds."
  },
  {
   "property": "C97",
   "status": "proved",
   "theorems": [
    "C97_steps",
    "C97_interval",
    "C97_safeguard",
    "C97_minimiser"
   ],
   "note": "The update of the interval is stated for one step of the search, with the invariant as hypothesis."
  },
  {
   "property": "C98",
   "status": "proved",
   "theorems": [
    "C98_cubic",
    "C98_extrapolation",
    "C98_quadratic",
    "C98_choice"
   ],
   "note": "Real arithmetic with exact square roots."
  },
  {
   "property": "C99",
   "status": "partial",
   "theorems": [
    "C99_partial",
    "C99_negation"
   ],
   "note": "get_params and every non-empty set_params raise AttributeError for every object (negation); readable and missing parameters per class proved"
  }
 ]
}
