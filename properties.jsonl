{"id": "C01", "title": "Stability-selection conversion is exact", "statement": "Passing stability_selection to a linear-model estimator either yields one integer threshold per requested entry, each between 1 and n_boots and equal to the entry itself (integers) or to the truncated product of the proportion and n_boots (floats), or raises; it raises exactly when the type is unsupported, a list mixes types, a scalar float is not finite, or some resulting threshold is outside 1..n_boots. A proportion of 1.0 always gives n_boots.", "quantifier": "every stability_selection value (float, int, bool, list, ndarray, other), every n_boots", "why_tests_cant": "A test checks a handful of scalars and lists; truncation, the order of the type tests and the bounds check interact over an infinite input space.", "anchors": ["src/pyuoi/linear_model/utils.py::stability_selection_to_threshold", "src/pyuoi/linear_model/base.py::AbstractUoILinearModel.__init__"]}
{"id": "C02", "title": "An accepted stability_selection always provides a threshold", "statement": "If the constructor accepts stability_selection, at least one selection threshold is available, so that fit produces at least one candidate support per regularization parameter.", "quantifier": "every accepted stability_selection value and n_boots", "why_tests_cant": "Tests only try values that someone thought of; an accepted value with no thresholds (an empty list) only shows up later inside fit.", "anchors": ["src/pyuoi/linear_model/utils.py::stability_selection_to_threshold", "src/pyuoi/linear_model/utils.py::intersection"]}
{"id": "C03", "title": "Intersection returns exactly the stable supports", "statement": "The supports returned by intersection are exactly the sets of features that are nonzero in at least t bootstraps at regularization parameter l, for t ranging over the thresholds and l over the parameters: every returned row is such a set, every such set is returned, no row is repeated and rows come in ascending lexicographic order.", "quantifier": "every 3-d coefficient array, every list of thresholds", "why_tests_cant": "The claim is a set equality over all coefficient arrays; a test can only compare a few arrays, and degenerate shapes go through a different path.", "anchors": ["src/pyuoi/linear_model/utils.py::intersection", "src/pyuoi/linear_model/base.py::AbstractUoILinearModel.intersect"]}
{"id": "C04", "title": "Intersection always returns a (supports x features) matrix", "statement": "Whatever the numbers of thresholds, regularization parameters and features, intersection returns a two-dimensional array whose rows have one entry per feature.", "quantifier": "every coefficient array with at least one bootstrap, parameter and feature", "why_tests_cant": "Shapes with a single regularization parameter or a single feature are rarely exercised and take a squeezed path.", "anchors": ["src/pyuoi/linear_model/utils.py::intersection"]}
{"id": "C05", "title": "Selection is monotone in the threshold", "statement": "For a fixed regularization parameter, raising the selection threshold never adds a feature: the support at a larger threshold is contained in the support at a smaller one; with the default threshold the support is the intersection over all bootstraps, and with threshold 1 it is the union.", "quantifier": "every coefficient array and every pair of thresholds", "why_tests_cant": "Monotonicity relates all pairs of runs; tests compare a few.", "anchors": ["src/pyuoi/linear_model/utils.py::intersection"]}
{"id": "C06", "title": "Multi-class supports are the union over classes", "statement": "With shared supports, a feature belongs to a candidate support of a multi-class model exactly when at least one class passes the threshold for that feature, and the candidate supports are unique and have one entry per feature.", "quantifier": "every coefficient array, number of classes, thresholds", "why_tests_cant": "The reshape/OR/unique chain has to be right for every number of classes and features.", "anchors": ["src/pyuoi/linear_model/base.py::UoI_Generalized_Linear_Regressor.intersect", "src/pyuoi/linear_model/logistic.py::UoI_L1Logistic.intersect"]}
{"id": "C07", "title": "Each task is run exactly once for any number of processes", "statement": "However many processes take part, the (bootstrap, regularization) pairs in selection and the (bootstrap, support) pairs in estimation are partitioned over the processes: each is run by exactly one process, contiguous and in order, loads differ by at most one, and gathering the pieces restores the original order.", "quantifier": "every number of tasks and every number of processes >= 1", "why_tests_cant": "A test runs on one or two fixed process counts; the partition must be right for all pairs (tasks, processes), including more processes than tasks.", "anchors": ["src/pyuoi/linear_model/base.py::AbstractUoILinearModel.fit", "src/pyuoi/mpi_utils.py::Gatherv_rows"]}
{"id": "C08", "title": "Distributed fit equals serial fit (no more processes than selection bootstraps)", "statement": "With n_boots_sel >= number of processes, a distributed fit returns the same supports, estimates, scores, chosen supports, coefficients and intercept as the serial fit that uses the same random draws, even when the solver warm-starts from its previous solution, as long as the reset between bootstraps puts the solver in a fixed state.", "quantifier": "every number of processes, bootstraps, regularization parameters, data set and solver", "why_tests_cant": "Equality over all process counts and all data; MPI tests run a few configurations.", "anchors": ["src/pyuoi/linear_model/base.py::AbstractUoILinearModel.fit", "src/pyuoi/mpi_utils.py::Gatherv_rows", "src/pyuoi/mpi_utils.py::Bcast_from_root"]}
{"id": "C09", "title": "Distributed fit equals serial fit (any number of processes)", "statement": "For every number of processes, including more processes than selection bootstraps, a distributed fit returns the same result as the serial fit with the same random draws.", "quantifier": "every number of processes, bootstraps, data set and solver", "why_tests_cant": "Depends on how a bootstrap's regularization path is cut across processes, which changes warm starts; only an argument over all cuts settles it.", "anchors": ["src/pyuoi/linear_model/base.py::AbstractUoILinearModel.fit"]}
{"id": "C10", "title": "All processes finish with the same fitted model", "statement": "After a distributed fit every process holds the same supports_, estimates_, scores_, chosen supports, coef_ and intercept_.", "quantifier": "every number of processes and every data set", "why_tests_cant": "Agreement must hold for each rank count and each path; tests inspect rank 0 or a couple of ranks.", "anchors": ["src/pyuoi/linear_model/base.py::AbstractUoILinearModel.fit", "src/pyuoi/mpi_utils.py::Bcast_from_root"]}
{"id": "C11", "title": "Distributed fit never deadlocks on its own collectives", "statement": "All processes issue the same sequence of collective operations with the same roots and compatible buffers, so a fit in which no process raises always runs to completion.", "quantifier": "every number of processes, every schedule, every data set", "why_tests_cant": "A deadlock depends on the process count and on data-dependent branches; a passing test shows one schedule.", "anchors": ["src/pyuoi/linear_model/base.py::AbstractUoILinearModel.fit", "src/pyuoi/mpi_utils.py::Bcast_from_root", "src/pyuoi/mpi_utils.py::Gatherv_rows"]}
{"id": "C12", "title": "A failure on one process does not leave the others waiting", "statement": "If drawing the train/test split fails, every process raises instead of some of them waiting for ever in a collective call.", "quantifier": "every number of processes >= 2, every failing draw", "why_tests_cant": "Hangs caused by one-sided failures are not visible in single-process tests.", "anchors": ["src/pyuoi/linear_model/base.py::AbstractUoILinearModel.fit"]}
{"id": "C13", "title": "Estimates vanish outside the support", "statement": "Every row of estimates_ is zero outside the candidate support it was fitted on, and on the support it holds the fitted coefficients in feature order for every output.", "quantifier": "every support, number of features and outputs, every fitted coefficient matrix", "why_tests_cant": "The tile/boolean-index assignment has to put every coefficient at the right place for all supports.", "anchors": ["src/pyuoi/linear_model/base.py::AbstractUoILinearModel.fit"]}
{"id": "C14", "title": "coef_ is a majority-supported median", "statement": "coef_ is the coordinate-wise median over the estimation bootstraps of the best estimate of each: a feature outside all chosen supports has coefficient zero, a feature excluded by more than half of the chosen supports has coefficient zero, and each coefficient lies between the smallest and the largest of the bootstrapped values.", "quantifier": "every number of estimation bootstraps (odd or even), all estimates and scores", "why_tests_cant": "Odd/even medians and ties make the claim quantify over all lists; tests fix one random seed.", "anchors": ["src/pyuoi/linear_model/base.py::AbstractUoILinearModel.fit"]}
{"id": "C15", "title": "The chosen support maximises the score, first on ties", "statement": "For each estimation bootstrap the chosen support attains the maximum score among all candidate supports and is the first one to do so, and scores_ holds the score of every (bootstrap, support) pair at its place.", "quantifier": "all score matrices", "why_tests_cant": "Tie handling and layout must hold for all score matrices.", "anchors": ["src/pyuoi/linear_model/base.py::AbstractUoILinearModel.fit"]}
{"id": "C16", "title": "Bootstraps are independent of one another", "statement": "The coefficients obtained for a selection bootstrap depend only on that bootstrap's rows and on the regularization parameters, not on which bootstraps were fitted before it.", "quantifier": "every order and content of previous bootstraps, including ones with non-finite solver state", "why_tests_cant": "Leakage through the reused solver object only appears for particular earlier bootstraps (for instance an all-zero response).", "anchors": ["src/pyuoi/linear_model/base.py::AbstractUoILinearModel.fit", "src/pyuoi/linear_model/poisson.py::Poisson.fit"]}
{"id": "C17", "title": "Held-out rows do not influence fitted candidates", "statement": "Without standardization and with a fixed regularization grid, changing rows that are held out of a bootstrap changes neither its selection coefficients nor its estimates; with estimation_target='test' the score is computed only from the held-out rows and with 'train' only from the training rows.", "quantifier": "all data sets, splits and changes to held-out rows", "why_tests_cant": "Non-interference compares all pairs of data sets that agree on the training rows.", "anchors": ["src/pyuoi/linear_model/base.py::AbstractUoILinearModel.fit", "src/pyuoi/linear_model/base.py::AbstractUoILinearModel._score_predictions"]}
{"id": "C18", "title": "A constant response is predicted exactly", "statement": "If y is constant, fit stops early with all coefficients zero, and with fit_intercept the fitted model predicts that constant for every input (for Poisson: the mean prediction is the constant).", "quantifier": "every data set with constant y, every X to predict on", "why_tests_cant": "Needs all X and all constants, with scaling in between.", "anchors": ["src/pyuoi/linear_model/base.py::AbstractUoILinearModel.fit", "src/pyuoi/linear_model/base.py::AbstractUoILinearRegressor._post_fit", "src/pyuoi/linear_model/poisson.py::UoI_Poisson._fit_intercept"]}
{"id": "C19", "title": "Fitted attributes describe the last fit", "statement": "After fit returns, every fitted attribute (supports_, scores_, estimates_, chosen supports, coef_, intercept_) refers to the data passed to that call, whatever was fitted before.", "quantifier": "every sequence of fit calls on one estimator", "why_tests_cant": "Staleness only shows for particular histories, e.g. a constant response after an ordinary one.", "anchors": ["src/pyuoi/linear_model/base.py::AbstractUoILinearModel.fit"]}
{"id": "C20", "title": "Refitting uses the regularization grid of the new data", "statement": "The regularization parameters used by a fit are those computed from that fit's data and the constructor arguments, not from data seen by an earlier fit.", "quantifier": "every history of fits on one estimator (Lasso, ElasticNet, Logistic, Poisson)", "why_tests_cant": "History property: only a second fit on different data shows it.", "anchors": ["src/pyuoi/linear_model/lasso.py::UoI_Lasso.get_reg_params", "src/pyuoi/linear_model/elasticnet.py::UoI_ElasticNet.get_reg_params", "src/pyuoi/linear_model/logistic.py::UoI_L1Logistic.get_reg_params", "src/pyuoi/linear_model/poisson.py::UoI_Poisson.get_reg_params"]}
{"id": "C21", "title": "An integer seed gives reproducible, distinct bootstraps", "statement": "With an integer random_state the successive bootstraps are successive draws of one seeded stream (so two fresh estimators with the same seed draw the same bootstraps and the draws within a fit advance the stream); this holds for every integral seed type that the API accepts.", "quantifier": "every seed value and integral type, every number of bootstraps", "why_tests_cant": "Whether the draws advance depends on the type of the seed; a test uses a Python int.", "anchors": ["src/pyuoi/linear_model/base.py::AbstractUoILinearModel.__init__", "src/pyuoi/linear_model/base.py::AbstractUoILinearModel.fit"]}
{"id": "C22", "title": "Elastic-net grid covers each (alpha, lambda) pair once", "statement": "The elastic-net grid contains, for every alpha and each of the n_lambdas values for that alpha, exactly one entry, alpha-major, all lambdas positive and decreasing from the largest useful value to eps times it.", "quantifier": "every list of alphas, n_lambdas, eps in (0,1), data set", "why_tests_cant": "Cartesian-product layout for all sizes.", "anchors": ["src/pyuoi/linear_model/elasticnet.py::UoI_ElasticNet.get_reg_params"]}
{"id": "C23", "title": "Undoing standardization preserves linear predictions", "statement": "For a linear estimator with standardize=True and fit_intercept=True the final coef_ and intercept_ applied to raw rows give exactly the prediction of the internal model on standardized rows mapped back to the units of y.", "quantifier": "every data set, scale, mean, internal coefficient vector and row", "why_tests_cant": "Algebraic identity over all reals.", "anchors": ["src/pyuoi/linear_model/base.py::AbstractUoILinearRegressor._post_fit", "src/pyuoi/linear_model/base.py::AbstractUoILinearModel._post_fit"]}
{"id": "C24", "title": "Undoing standardization preserves logistic predictions", "statement": "For the L1-logistic estimator with standardize=True the final coef_ and intercept_ applied to raw rows give the same decision values as the internal model on standardized rows.", "quantifier": "every data set, scale, mean, internal coefficients and row", "why_tests_cant": "The test data have nearly zero mean and unit scale, so a wrong correction is invisible.", "anchors": ["src/pyuoi/linear_model/base.py::UoI_Generalized_Linear_Regressor._post_fit", "src/pyuoi/linear_model/logistic.py::UoI_L1Logistic"]}
{"id": "C25", "title": "Undoing standardization preserves Poisson predictions", "statement": "For Poisson models with standardize=True the final coef_ and intercept_ give on raw rows the same predicted mean as the internal model on standardized rows, with and without an intercept.", "quantifier": "every data set, scale, mean, internal coefficients and row", "why_tests_cant": "Algebraic identity over all reals, and both intercept settings.", "anchors": ["src/pyuoi/linear_model/poisson.py::Poisson._post_fit", "src/pyuoi/linear_model/poisson.py::UoI_Poisson._post_fit"]}
{"id": "C26", "title": "Predictions do not depend on feature units", "statement": "With standardize=True and fit_intercept=True, replacing a feature by a positive rescaling plus an offset (units change) leaves the predictions of a linear estimator unchanged on correspondingly changed inputs.", "quantifier": "every data set, every rescaling factor and offset per column", "why_tests_cant": "Relates all pairs of data sets related by a unit change.", "anchors": ["src/pyuoi/linear_model/base.py::AbstractUoILinearModel._pre_fit", "src/pyuoi/linear_model/base.py::AbstractUoILinearRegressor._post_fit"]}
{"id": "C27", "title": "The fitted intercept is optimal for the fitted coefficients", "statement": "For fixed coef_, the linear intercept makes the residuals sum to zero and minimises the squared error; the Poisson intercept makes the mean prediction equal the mean response and maximises the Poisson likelihood.", "quantifier": "every data set and coefficient vector", "why_tests_cant": "Optimality over all alternative intercepts.", "anchors": ["src/pyuoi/linear_model/base.py::AbstractUoILinearRegressor._fit_intercept", "src/pyuoi/linear_model/poisson.py::UoI_Poisson._fit_intercept", "src/pyuoi/linear_model/poisson.py::PoissonInterceptFitterNoFeatures"]}
{"id": "C28", "title": "UoI_Poisson honours its constructor arguments", "statement": "Each constructor argument of UoI_Poisson takes effect: standardize=False disables standardization, and any estimation_score accepted by the constructor can be computed by fit.", "quantifier": "every argument combination", "why_tests_cant": "Only unusual combinations show that an argument is dropped.", "anchors": ["src/pyuoi/linear_model/poisson.py::UoI_Poisson.__init__", "src/pyuoi/linear_model/poisson.py::UoI_Poisson._score_predictions"]}
{"id": "C29", "title": "Information criteria rank models as documented", "statement": "AIC, AICc and BIC scores are maximised by larger log-likelihood and smaller support; AICc is never below AIC, equals it when n_samples <= n_features+1 and its correction tends to it otherwise; the returned score is the negated criterion so that larger is better.", "quantifier": "all log-likelihoods, support sizes and sample sizes", "why_tests_cant": "Ordering claims over all reals and naturals.", "anchors": ["src/pyuoi/utils.py::AIC", "src/pyuoi/utils.py::AICc", "src/pyuoi/utils.py::BIC", "src/pyuoi/linear_model/base.py::AbstractUoILinearRegressor._score_predictions"]}
{"id": "C30", "title": "The Gaussian log-likelihood is the profile likelihood", "statement": "For 'normal', log_likelihood_glm equals, up to the additive constant (n/2) log(2 pi), the maximum over the noise variance of the Gaussian log-likelihood of the residuals.", "quantifier": "every residual vector with nonzero sum of squares", "why_tests_cant": "Maximum over a continuum.", "anchors": ["src/pyuoi/utils.py::log_likelihood_glm"]}
{"id": "C31", "title": "The Poisson log-likelihood prefers the truth", "statement": "For 'poisson' with positive predictions, log_likelihood_glm equals up to a prediction-independent term the mean Poisson log-likelihood and no positive prediction vector beats the response itself; the all-zero prediction is scored 0 for an all-zero response and -infinity otherwise.", "quantifier": "every response vector and every prediction vector", "why_tests_cant": "Maximum over a continuum of predictions.", "anchors": ["src/pyuoi/utils.py::log_likelihood_glm"]}
{"id": "C32", "title": "Scores are well defined for every accepted metric", "statement": "Every estimation_score accepted by a constructor leads to a score (no exception) when a candidate is scored, and the default estimation_target is test for predictive metrics and train for information criteria.", "quantifier": "every estimator class, accepted estimation_score, estimation_target", "why_tests_cant": "Full table of class x metric x target.", "anchors": ["src/pyuoi/linear_model/base.py::AbstractUoILinearRegressor.__init__", "src/pyuoi/linear_model/base.py::UoI_Generalized_Linear_Regressor.__init__", "src/pyuoi/linear_model/poisson.py::UoI_Poisson._score_predictions"]}
{"id": "C33", "title": "softmax returns a probability vector", "statement": "softmax output is positive, sums to one along the axis, preserves order, is invariant to adding a constant, and subtracting the maximum never exponentiates a positive number.", "quantifier": "every non-empty finite input vector", "why_tests_cant": "Continuum of inputs; overflow safety needs all magnitudes.", "anchors": ["src/pyuoi/utils.py::softmax"]}
{"id": "C34", "title": "sigmoid is the logistic function", "statement": "sigmoid(x) equals 1/(1+exp(-x)), lies strictly between 0 and 1, is strictly increasing and sigmoid(-x) = 1 - sigmoid(x).", "quantifier": "every real x", "why_tests_cant": "Continuum of inputs.", "anchors": ["src/pyuoi/utils.py::sigmoid"]}
{"id": "C35", "title": "Each log record is emitted once", "statement": "Creating any number of estimators with the default logger leaves one handler on it, so that each message is written once; in a parallel run the logger names of different ranks are different and of equal length.", "quantifier": "every number of constructed estimators, every communicator size", "why_tests_cant": "Depends on how many estimators the process has created before.", "anchors": ["src/pyuoi/utils.py::check_logger"]}
{"id": "C36", "title": "Bcast_from_root delivers the root's array", "statement": "After Bcast_from_root every process holds the array that the root passed, for every choice of root.", "quantifier": "every number of processes, root, shape, supported dtype, array", "why_tests_cant": "Tests use root 0.", "anchors": ["src/pyuoi/mpi_utils.py::Bcast_from_root"]}
{"id": "C37", "title": "Gatherv_rows concatenates in rank order", "statement": "Gatherv_rows returns on the root the row-wise concatenation of the arrays in rank order and None elsewhere, for every choice of root and any (possibly zero) number of rows per process.", "quantifier": "every number of processes, root, row counts, row shapes", "why_tests_cant": "Displacement arithmetic for all sizes; tests use root 0 and a few shapes.", "anchors": ["src/pyuoi/mpi_utils.py::Gatherv_rows"]}
{"id": "C38", "title": "load_data_MPI gives every process the file's data", "statement": "load_data_MPI returns on all processes the datasets stored in the file, for every root, and raises for dtypes without MPI counterpart.", "quantifier": "every number of processes, root, shapes and dtypes", "why_tests_cant": "Tests use one root and float data.", "anchors": ["src/pyuoi/mpi_utils.py::load_data_MPI"]}
{"id": "C39", "title": "Soft-thresholding is the proximal operator", "statement": "soft_threshold(x, t) is the unique minimiser of (b-x)^2/2 + t|b| for t >= 0; it is odd, monotone, 1-Lipschitz and zero exactly when |x| <= t.", "quantifier": "all reals x, t >= 0, all competitors b", "why_tests_cant": "Minimisation over a continuum.", "anchors": ["src/pyuoi/linear_model/poisson.py::Poisson.soft_threshold"]}
{"id": "C40", "title": "A coordinate-descent sweep never increases the penalised surrogate", "statement": "Within one sweep of the Poisson coordinate-descent solver each coordinate update minimises the elastic-net-penalised weighted least-squares surrogate in that coordinate, so the surrogate value after the sweep is at most the value before, and coordinates outside the active set are unchanged.", "quantifier": "all data, nonnegative weights with positive sums, working responses, penalties, active sets", "why_tests_cant": "Optimality and monotonicity over all real data.", "anchors": ["src/pyuoi/linear_model/poisson.py::Poisson._cd_sweep"]}
{"id": "C41", "title": "Fixed points of the Poisson solver are optimal", "statement": "If a full coordinate-descent sweep (surrogate built at the current point) leaves coefficients and intercept unchanged, the subgradient optimality conditions of the elastic-net Poisson objective hold, and the point is a global minimiser.", "quantifier": "all data and penalties", "why_tests_cant": "Optimality against all competitors.", "anchors": ["src/pyuoi/linear_model/poisson.py::Poisson.adjusted_response", "src/pyuoi/linear_model/poisson.py::Poisson._cd_sweep"]}
{"id": "C42", "title": "Warm starting only changes the starting point", "statement": "A warm-started Poisson coordinate-descent fit considers the same coefficients for update as a cold fit, so that coefficients at zero can become nonzero.", "quantifier": "every warm-start vector", "why_tests_cant": "Only specific starts (zero vector) show the effect.", "anchors": ["src/pyuoi/linear_model/poisson.py::Poisson._cd"]}
{"id": "C43", "title": "The Poisson loss gradient is the derivative", "statement": "The value/gradient pair supplied to the L-BFGS solver for the Poisson loss is consistent: the gradient is the true gradient of the returned value (L2 part included), for coefficients and intercept.", "quantifier": "all data and all points", "why_tests_cant": "Tests compare finite differences at a few points.", "anchors": ["src/pyuoi/linear_model/poisson.py::_poisson_loss_and_grad"]}
{"id": "C44", "title": "The largest Poisson penalty is the critical one", "statement": "At the largest lambda of the grid the zero coefficient vector with the optimal intercept satisfies the optimality conditions of the L1 part, and for every smaller L1 penalty it does not.", "quantifier": "every data set (centred columns)", "why_tests_cant": "An if-and-only-if over all penalties.", "anchors": ["src/pyuoi/linear_model/poisson.py::UoI_Poisson.get_reg_params"]}
{"id": "C45", "title": "A fitted Poisson model can predict", "statement": "After a successful Poisson fit, predict and predict_mean return one nonnegative value per row for every admissible constructor setting, and before fit they raise.", "quantifier": "all constructor settings, data", "why_tests_cant": "Setting fit_intercept=False takes a different path.", "anchors": ["src/pyuoi/linear_model/poisson.py::Poisson.fit", "src/pyuoi/linear_model/poisson.py::Poisson.predict_mean", "src/pyuoi/linear_model/poisson.py::Poisson.predict"]}
{"id": "C46", "title": "The logistic loss gradients are the derivatives", "statement": "The value/gradient pairs supplied to the solver for the binary and the multinomial logistic loss (with L2 term and coefficient mask) are consistent: the gradient is the true gradient on unmasked coordinates and zero on masked ones.", "quantifier": "all data, masks and points", "why_tests_cant": "Tests compare finite differences at a few points.", "anchors": ["src/pyuoi/linear_model/logistic.py::_logistic_loss_and_grad", "src/pyuoi/linear_model/logistic.py::_multinomial_loss_grad"]}
{"id": "C47", "title": "Masked logistic fits never use excluded features", "statement": "For a masked logistic fit the returned coefficients are exactly zero outside the mask, whatever the optimiser does, for binary and multinomial problems, with and without intercept.", "quantifier": "every mask, optimiser behaviour and data", "why_tests_cant": "Quantifies over optimiser behaviour.", "anchors": ["src/pyuoi/linear_model/logistic.py::MaskedCoefLogisticRegression.fit", "src/pyuoi/linear_model/logistic.py::_logistic_regression_path"]}
{"id": "C48", "title": "The intercept-only classifier reproduces class frequencies", "statement": "With no features selected, the classifier's probabilities are positive, sum to one and equal the training class frequencies whenever every class occurs; the predicted class is a most frequent one.", "quantifier": "every label vector and number of classes", "why_tests_cant": "All label vectors.", "anchors": ["src/pyuoi/linear_model/logistic.py::LogisticInterceptFitterNoFeatures"]}
{"id": "C49", "title": "The largest logistic penalty is the critical one", "statement": "At the smallest C of the grid (largest penalty) the all-zero coefficient vector is a stationary point of the L1-penalised objective, and just below that penalty it is not.", "quantifier": "every binary data set", "why_tests_cant": "An if-and-only-if over all penalties.", "anchors": ["src/pyuoi/linear_model/logistic.py::UoI_L1Logistic.get_reg_params"]}
{"id": "C50", "title": "All-zero detection stops only at all-zero coefficients", "statement": "The L1-logistic solver reports the all-zero solution only when all penalised coefficients were zero in two consecutive progress reports.", "quantifier": "every sequence of iterates, with or without intercept", "why_tests_cant": "Depends on iterate histories.", "anchors": ["src/pyuoi/linear_model/logistic.py::_logistic_regression_path"]}
{"id": "C51", "title": "Column selection returns a valid column subset", "statement": "column_select returns strictly increasing valid indices; a column with c times its leverage share at least one is always selected, a column with zero leverage never, and for the same uniform draws a larger c selects a superset.", "quantifier": "every leverage vector, c and sequence of draws", "why_tests_cant": "All draws; tests fix a seed.", "anchors": ["src/pyuoi/decomposition/utils.py::column_select"]}
{"id": "C52", "title": "column_select is reproducible from its seed", "statement": "Calling column_select with the same matrix and the same random_state returns the same columns, whatever was drawn elsewhere in the process.", "quantifier": "every state of the global generator", "why_tests_cant": "Hidden global state.", "anchors": ["src/pyuoi/decomposition/utils.py::column_select"]}
{"id": "C53", "title": "UoI_CUR selects exactly the stable columns", "statement": "column_indices_ is strictly increasing, in range, and contains a column exactly when for some rank k the column was selected in at least the stability threshold of bootstraps; raising the threshold never adds a column.", "quantifier": "every draw history, number of bootstraps, ranks", "why_tests_cant": "All histories of draws.", "anchors": ["src/pyuoi/decomposition/CUR.py::UoI_CUR.fit", "src/pyuoi/decomposition/utils.py::stability_selection_to_threshold"]}
{"id": "C54", "title": "UoI_CUR.transform reproduces the selected columns", "statement": "transform(X) on the fitted X returns the same array as components_, with one column per selected column, including when no column is selected.", "quantifier": "every data set and selected set", "why_tests_cant": "The empty selection needs particular draws.", "anchors": ["src/pyuoi/decomposition/CUR.py::UoI_CUR.transform", "src/pyuoi/decomposition/CUR.py::UoI_CUR.fit"]}
{"id": "C55", "title": "CUR rank/column arguments are validated", "statement": "check_ks_and_cs accepts exactly the admissible combinations of maximum rank / list of ranks and expected column counts, and returns lists of equal length with ranks within bounds.", "quantifier": "every argument value", "why_tests_cant": "Full input space of the validator.", "anchors": ["src/pyuoi/decomposition/CUR.py::UoI_CUR.check_ks_and_cs"]}
{"id": "C56", "title": "Bootstraps of UoI_CUR differ", "statement": "With an integer random_state successive bootstraps of UoI_CUR are successive draws, not copies of one draw.", "quantifier": "every integer seed and number of bootstraps", "why_tests_cant": "A fixed-seed test cannot tell copies from coincidence without inspecting all bootstraps.", "anchors": ["src/pyuoi/decomposition/CUR.py::UoI_CUR.fit"]}
{"id": "C57", "title": "NMF consensus bases are nonnegative", "statement": "Every basis in components_ after an NMF fit is a mean (or median) of nonnegative normalised bases of one cluster, so it is nonnegative, and noise-labelled bases are not used.", "quantifier": "every clustering outcome and every set of bases", "why_tests_cant": "All clusterings.", "anchors": ["src/pyuoi/decomposition/NMF.py::UoI_NMF_Base.fit"]}
{"id": "C58", "title": "Dissimilarity is a normalised, invariant discrepancy", "statement": "dissimilarity(H1,H2) lies in [0,1], is symmetric, is zero for identical nonzero-row bases, and does not change when bases are rescaled by positive factors or permuted.", "quantifier": "all pairs of nonnegative bases with nonzero rows", "why_tests_cant": "All matrices.", "anchors": ["src/pyuoi/decomposition/utils.py::dissimilarity"]}
{"id": "C59", "title": "NMF picks the most reproducible rank", "statement": "The rank chosen by NMF minimises the average pairwise dissimilarity, the first such rank on ties.", "quantifier": "all dissimilarity tables", "why_tests_cant": "All tables and ties.", "anchors": ["src/pyuoi/decomposition/NMF.py::UoI_NMF_Base.fit"]}
{"id": "C60", "title": "NMF default construction can be fitted", "statement": "An estimator constructed with default arguments can be fitted, and set_params accepts every parameter that get_params lists.", "quantifier": "every sequence of constructor/set_params/fit calls", "why_tests_cant": "Call sequences.", "anchors": ["src/pyuoi/decomposition/NMF.py::UoI_NMF_Base.__init__", "src/pyuoi/decomposition/NMF.py::UoI_NMF_Base.set_params", "src/pyuoi/decomposition/NMF.py::UoI_NMF_Base.fit"]}
{"id": "C61", "title": "NMF transform needs a fitted model and solves for every row", "statement": "transform raises before fit; after fit it returns one nonnegative weight row per sample obtained from the nonnegative least squares solver unchanged, for integer and float inputs.", "quantifier": "every input matrix and dtype", "why_tests_cant": "dtype-dependent storage is not tested.", "anchors": ["src/pyuoi/decomposition/NMF.py::UoI_NMF_Base.transform"]}
{"id": "C62", "title": "Synthetic models have the requested sparsity", "statement": "Generated coefficient vectors have exactly n_features - n_informative coordinates set to zero (so at most n_informative nonzero ones), a supplied coefficient vector is used unchanged, and include_intercept=False gives intercept zero.", "quantifier": "every size, seed and supplied coefficient vector", "why_tests_cant": "All random draws.", "anchors": ["src/pyuoi/datasets/__init__.py::make_linear_regression", "src/pyuoi/datasets/__init__.py::make_classification", "src/pyuoi/datasets/__init__.py::make_poisson_regression"]}
{"id": "C63", "title": "The OWL-QN pseudo-gradient is the minimum-norm subgradient", "statement": "For L1-penalised minimisation the direction driver is, coordinate by coordinate, the subgradient of F + c|x| of least absolute value; it is zero exactly at the points satisfying the first-order optimality conditions, and unpenalised variables keep their plain gradient.", "quantifier": "all points, gradients, penalties and penalised ranges", "why_tests_cant": "All reals.", "anchors": ["liblbfgs/lbfgs.c::owlqn_pseudo_gradient"]}
{"id": "C64", "title": "OWL-QN steps never cross orthants", "statement": "Every trial point of an L1-penalised line search has, in each penalised coordinate, the sign of the current point or zero (for zero coordinates: the sign opposite to the pseudo-gradient or zero).", "quantifier": "all points, directions, steps", "why_tests_cant": "All reals.", "anchors": ["liblbfgs/lbfgs.c::owlqn_project", "liblbfgs/lbfgs.c::line_search_backtracking_owlqn"]}
{"id": "C65", "title": "An accepted line-search step satisfies its documented conditions", "statement": "When a line search reports success, the new point satisfies sufficient decrease; with 'wolfe' additionally the curvature condition, with 'strongwolfe' and 'morethuente' the strong curvature condition; and at most max_linesearch evaluations were made.", "quantifier": "every objective function, direction, step, parameter set", "why_tests_cant": "Quantifies over objective functions and all trial sequences.", "anchors": ["liblbfgs/lbfgs.c::line_search_backtracking", "liblbfgs/lbfgs.c::line_search_backtracking_owlqn", "liblbfgs/lbfgs.c::line_search_morethuente"]}
{"id": "C66", "title": "Minimisation never returns a worse point", "statement": "The point returned by fmin_lbfgs has an objective value (including the L1 term) no larger than the starting point, whatever the line search did; a failed line search returns the last accepted point.", "quantifier": "every objective function, start, parameters", "why_tests_cant": "All functions and all iteration histories.", "anchors": ["liblbfgs/lbfgs.c::lbfgs", "src/pyuoi/lbfgs/_lowlevel.pyx::LBFGS.minimize"]}
{"id": "C67", "title": "Minimisation respects its iteration and evaluation limits", "statement": "fmin_lbfgs performs at most max_iterations iterations (when positive) and at most 1 + max_iterations * max_linesearch evaluations, and reports the limit by a warning while still returning the best point.", "quantifier": "every objective function and limits", "why_tests_cant": "All functions.", "anchors": ["liblbfgs/lbfgs.c::lbfgs", "src/pyuoi/lbfgs/_lowlevel.pyx::LBFGS.minimize"]}
{"id": "C68", "title": "The limited memory holds the last m corrections", "statement": "At every iteration the quasi-Newton direction is computed from exactly the last min(k, m) correction pairs, newest first, for every m >= 1.", "quantifier": "every m >= 1 and iteration number", "why_tests_cant": "Ring-buffer index arithmetic over all k and m.", "anchors": ["liblbfgs/lbfgs.c::lbfgs"]}
{"id": "C69", "title": "The two-loop recursion is the BFGS inverse-Hessian product", "statement": "The computed direction equals minus the limited-memory BFGS inverse-Hessian approximation applied to the gradient, and is a descent direction whenever all stored curvatures y.s are positive.", "quantifier": "all correction pairs and gradients", "why_tests_cant": "Algebraic identity over all reals and histories.", "anchors": ["liblbfgs/lbfgs.c::lbfgs"]}
{"id": "C70", "title": "Every solver outcome maps to a documented result", "statement": "fmin_lbfgs either returns an array of the shape of x0, warns and returns, or raises one of MemoryError, AllZeroLBFGSError, LBFGSError; in particular a nonzero value from the progress callback raises LBFGSError as documented.", "quantifier": "every status code the C library or the progress callback can produce", "why_tests_cant": "The delta-based stop and user codes are never exercised.", "anchors": ["src/pyuoi/lbfgs/_lowlevel.pyx::LBFGS.minimize", "src/pyuoi/lbfgs/__init__.py::fmin_lbfgs"]}
{"id": "C71", "title": "Solver parameters are validated before any evaluation", "statement": "Invalid parameters (documented ranges) are rejected before the objective is evaluated, each with its own error, and valid ones are accepted; OWL-QN always runs with its backtracking search.", "quantifier": "every parameter tuple", "why_tests_cant": "Large parameter space and order of checks.", "anchors": ["liblbfgs/lbfgs.c::lbfgs", "src/pyuoi/lbfgs/__init__.py::fmin_lbfgs"]}
{"id": "C72", "title": "Status codes of wrapper and library agree", "statement": "Each named status code has the same numeric value in the C header and in the Python wrapper, all error codes are distinct and negative, and each has a message, which is the description of the code in the header.", "quantifier": "every code", "why_tests_cant": "Enumerations drift silently.", "anchors": ["liblbfgs/lbfgs.h", "src/pyuoi/lbfgs/_lowlevel.pyx::ReturnCode", "src/pyuoi/lbfgs/_lowlevel.pyx::_ERROR_MESSAGES"]}
{"id": "C73", "title": "A data set with a single feature can be fitted", "statement": "fit on data with one feature and one output returns a fitted model whenever the splits, the solvers and the scores succeed, for every number of regularization parameters and whether or not the feature is selected.", "quantifier": "every one-feature data set, regularization grid, threshold list, solver behaviour", "why_tests_cant": "The tests only use several features; the failure comes from squeezing length-one axes.", "anchors": ["src/pyuoi/linear_model/base.py::AbstractUoILinearModel.fit", "src/pyuoi/linear_model/utils.py::intersection"]}
{"id": "C74", "title": "Predictions follow the units of the response", "statement": "With standardize=True and fit_intercept=True, fitting a linear estimator on a*y+c with a>0 gives predictions a*(old prediction)+c for every input.", "quantifier": "every data set, every a>0 and c, every row to predict on", "why_tests_cant": "Relates all pairs of responses related by a unit change.", "anchors": ["src/pyuoi/linear_model/base.py::AbstractUoILinearRegressor._pre_fit", "src/pyuoi/linear_model/base.py::AbstractUoILinearRegressor._post_fit"]}
{"id": "C75", "title": "A Poisson fit reported as converged is a solution", "statement": "When the coordinate-descent Poisson solver stops by its convergence check, the returned point minimises its penalised objective up to the tolerance; in particular, at a penalty at or above the critical one it returns zero coefficients with the intercept of the intercept-only model.", "quantifier": "every data set, penalty, tolerance and iteration limit", "why_tests_cant": "The convergence check looks at coefficients only; the tests compare fits with small penalties.", "anchors": ["src/pyuoi/linear_model/poisson.py::Poisson._cd", "src/pyuoi/linear_model/poisson.py::Poisson._cd_sweep"]}
{"id": "C76", "title": "An all-zero L1 logistic fit predicts the class frequencies", "statement": "When an L1-penalised logistic fit with an intercept ends with all coefficients zero, its intercept is that of the intercept-only model, so its predicted probabilities equal the class frequencies of the training labels.", "quantifier": "every data set and penalty for which the fit ends with zero coefficients", "why_tests_cant": "The early stop for all-zero coefficients is only reached for strong penalties; the tests check the coefficients and not the intercept.", "anchors": ["src/pyuoi/linear_model/logistic.py::_logistic_regression_path", "src/pyuoi/linear_model/logistic.py::MaskedCoefLogisticRegression.fit"]}
{"id": "C77", "title": "UoI_NMF uses the solvers it is given", "statement": "An estimator constructed with an NMF solver, a clusterer, a regressor, a consensus method or a DBSCAN leaf size uses them.", "quantifier": "every combination of constructor arguments", "why_tests_cant": "The tests never pass these arguments to UoI_NMF.", "anchors": ["src/pyuoi/decomposition/NMF.py::UoI_NMF.__init__"]}
{"id": "C78", "title": "NMF recovers samples in the cone of its components", "statement": "inverse_transform(transform(X)) equals X whenever every row of X is a nonnegative combination of the fitted components and the regressor solves the nonnegative least squares problem.", "quantifier": "every fitted estimator and every matrix with rows in the cone, integer or float", "why_tests_cant": "Exact recovery for all component matrices.", "anchors": ["src/pyuoi/decomposition/NMF.py::UoI_NMF_Base.transform", "src/pyuoi/decomposition/NMF.py::UoI_NMF_Base.inverse_transform"]}
{"id": "C79", "title": "make_classification works for every size", "statement": "For every number of samples and features at least one, make_classification returns finite standardised samples (mean zero and mean square one over the features) and one response per sample.", "quantifier": "all sizes and draws", "why_tests_cant": "The tests use many samples and features.", "anchors": ["src/pyuoi/datasets/__init__.py::make_classification"]}
{"id": "C80", "title": "A line search gives up only when its trials fail", "statement": "With at least one evaluation permitted, a line search on a descent direction reports failure only if the last trial point it evaluated violates the conditions it is meant to establish.", "quantifier": "all objective functions, directions, steps and limits", "why_tests_cant": "Needs limits exactly at the boundary, for every objective function.", "anchors": ["liblbfgs/lbfgs.c::line_search_backtracking", "liblbfgs/lbfgs.c::line_search_backtracking_owlqn", "liblbfgs/lbfgs.c::line_search_morethuente"]}
{"id": "C81", "title": "Exceptions in callables reach the caller", "statement": "An exception raised by the objective or the progress callable passed to fmin_lbfgs is raised to the caller of fmin_lbfgs.", "quantifier": "all callables, starts and parameters", "why_tests_cant": "The tests only use callables that do not raise.", "anchors": ["src/pyuoi/lbfgs/_lowlevel.pyx::call_eval", "src/pyuoi/lbfgs/_lowlevel.pyx::call_progress"]}
{"id": "C82", "title": "The message of a rejected parameter names that parameter", "statement": "The LBFGSError raised because an argument of fmin_lbfgs is out of range names that argument.", "quantifier": "all arguments", "why_tests_cant": "Messages are not tested.", "anchors": ["src/pyuoi/lbfgs/_lowlevel.pyx::_ERROR_MESSAGES", "liblbfgs/lbfgs.h"]}
{"id": "C83", "title": "Variables the objective ignores keep their starting values", "statement": "A variable whose partial derivative is zero everywhere has, in the point returned by fmin_lbfgs and in every point shown to the progress callable, exactly its starting value, if it is not penalised or starts at zero.", "quantifier": "all objective functions, starts, memory sizes >= 1, line searches and penalties", "why_tests_cant": "Needs every objective and every history of corrections, and exact equality.", "anchors": ["liblbfgs/lbfgs.c::lbfgs", "liblbfgs/lbfgs.c::line_search_backtracking_owlqn", "liblbfgs/lbfgs.c::owlqn_constrain_line_search"]}
{"id": "C84", "title": "Reported convergence means a small gradient", "statement": "When fmin_lbfgs returns without a warning and no stopping rule other than the gradient test is in force, the (pseudo-)gradient norm at the returned point is at most epsilon times max(1, |x|); for a convex objective its excess over any other point y is at most that times |y - x|.", "quantifier": "all objective functions, starts and parameters", "why_tests_cant": "A statement about every run that converges, not about particular functions.", "anchors": ["liblbfgs/lbfgs.c::lbfgs", "src/pyuoi/lbfgs/_lowlevel.pyx::LBFGS.minimize"]}
{"id": "C85", "title": "Every search direction is a descent direction", "statement": "At every iteration of fmin_lbfgs the search direction has a negative inner product with the (pseudo-)gradient, so that no call fails with the error for an ascent direction.", "quantifier": "all objective functions, starts and parameters", "why_tests_cant": "Rounding apart, an invariant of all iterations over all functions; a test sees a few functions.", "anchors": ["liblbfgs/lbfgs.c::lbfgs", "liblbfgs/lbfgs.c::line_search_backtracking", "liblbfgs/lbfgs.c::line_search_morethuente"]}
{"id": "C86", "title": "The progress callable sees every iteration once", "statement": "The progress callable of fmin_lbfgs is called once per iteration with the iteration numbers 1, 2, ..., each time with the accepted point, its gradient, its objective value including the L1 term and its norms; the returned point is the one last shown.", "quantifier": "all objective functions, starts and parameters", "why_tests_cant": "All iteration histories.", "anchors": ["liblbfgs/lbfgs.c::lbfgs", "src/pyuoi/lbfgs/_lowlevel.pyx::call_progress"]}
{"id": "C87", "title": "An L1 logistic fit without warning is almost optimal", "statement": "If an L1-penalised logistic fit returns coefficients without a convergence warning, no coefficients within the mask and no intercept have an objective (mean weighted log-loss plus 1/C times the L1 norm) below that of the result by more than tol * max(1, norm of the result) times their distance from it; and a fit that returns coefficients, even with a warning, is never worse than its starting point.", "quantifier": "all data, non-negative sample weights, 0/1 masks, starts, C, tol and iteration limits; binary and multinomial", "why_tests_cant": "Optimality quantifies over all coefficient vectors, for all data.", "anchors": ["src/pyuoi/linear_model/logistic.py::_logistic_regression_path", "src/pyuoi/lbfgs/_lowlevel.pyx::LBFGS.minimize", "liblbfgs/lbfgs.c::lbfgs"]}
{"id": "C88", "title": "L1 logistic fits of ordinary data do not raise", "statement": "An L1-penalised logistic fit with an iteration limit always ends with one result, and for data of ordinary magnitude that result is not an optimiser error: it is a coefficient vector, perhaps with a warning, or the all-zero solution.", "quantifier": "all data with entries bounded by M and weights bounded by W such that size * (M W + 1/C)^2 <= 1e28, all masks, starts, C > 0 and tol >= 1e-20", "why_tests_cant": "All data and all iteration histories.", "anchors": ["src/pyuoi/linear_model/logistic.py::_logistic_regression_path", "src/pyuoi/lbfgs/_lowlevel.pyx::LBFGS.minimize", "liblbfgs/lbfgs.c::line_search_backtracking_owlqn"]}
{"id": "C89", "title": "A Poisson fit without warning is almost optimal", "statement": "If a Poisson fit with solver='lbfgs' returns without a convergence warning, no coefficients and no intercept have an elastic-net objective (mean weighted Poisson loss plus alpha times the elastic-net penalty) below that of the result by more than tol * max(1, norm of the result) times their distance from it; with standardize the penalty, norm and distance are those of the standardized data. A cold fit that returns, even with a warning, is never worse than the zero model.", "quantifier": "all data, non-negative sample weights, penalties, tolerances and iteration limits", "why_tests_cant": "Optimality quantifies over all coefficient vectors, for all data.", "anchors": ["src/pyuoi/linear_model/poisson.py::Poisson.fit", "src/pyuoi/linear_model/poisson.py::_poisson_loss_and_grad", "src/pyuoi/lbfgs/__init__.py::fmin_lbfgs", "liblbfgs/lbfgs.c::lbfgs"]}
{"id": "C90", "title": "Poisson fits of ordinary data do not raise", "statement": "A cold Poisson fit with solver='lbfgs', an L1 penalty and an iteration limit always ends with exactly one result, and for data of ordinary magnitude that result is a fitted model, never an optimiser error.", "quantifier": "all data with features bounded by M (or standardized, with at most M^2 rows), responses in [0, Y], weights bounded by W with (p+1) (M W Y + alpha l1_ratio)^2 <= 1e28, and tol >= 1e-20", "why_tests_cant": "All data and all iteration histories.", "anchors": ["src/pyuoi/linear_model/poisson.py::Poisson.fit", "src/pyuoi/lbfgs/_lowlevel.pyx::LBFGS.minimize", "liblbfgs/lbfgs.c::line_search_backtracking_owlqn"]}
{"id": "C91", "title": "A warm-started Poisson fit is not worse than its start", "statement": "A Poisson fit with warm_start=True on an already fitted object returns a model whose objective is not larger than that of the model the object held before.", "quantifier": "all data, previous coefficients and intercepts, settings", "why_tests_cant": "Needs every previous model; units differ only for standardized data with nonzero means.", "anchors": ["src/pyuoi/linear_model/poisson.py::Poisson.fit"]}
{"id": "C92", "title": "A degenerate Poisson fit does not spoil later ones", "statement": "After a Poisson fit to a response that is not constant, the intercept is finite and the predicted means are positive, whatever the object was fitted to before.", "quantifier": "all data, settings and previous fits, including fits to a response of zeros", "why_tests_cant": "Needs a sequence of fits with a degenerate first response.", "anchors": ["src/pyuoi/linear_model/poisson.py::Poisson.fit", "liblbfgs/lbfgs.c::lbfgs"]}
{"id": "C93", "title": "Without warm start, earlier Poisson fits do not matter", "statement": "With warm_start=False the result of fit and the predictions after it depend only on the constructor arguments and the data of that fit, not on earlier fits of the same object.", "quantifier": "all previous states of the object, data and settings, both solvers", "why_tests_cant": "All histories of the object.", "anchors": ["src/pyuoi/linear_model/poisson.py::Poisson.fit", "src/pyuoi/linear_model/poisson.py::Poisson._cd"]}
{"id": "C94", "title": "Coordinate descent stops exactly at small changes", "statement": "The result of Poisson coordinate descent is the last of at most max_iter sweeps from the start; the fit stops before max_iter exactly when no coefficient changed by tol or more in the last sweep, and until then some coefficient did in every sweep. Without fit_intercept the intercept stays zero and a previous one is ignored.", "quantifier": "all data, penalties, starts, tolerances and iteration limits", "why_tests_cant": "All iteration histories.", "anchors": ["src/pyuoi/linear_model/poisson.py::Poisson._cd", "src/pyuoi/linear_model/poisson.py::Poisson._cd_sweep"]}
{"id": "C95", "title": "Generated regressions belong together", "statement": "make_linear_regression and make_poisson_regression return a design matrix of the requested shape, and the response is drawn from intercept + X beta of exactly the returned matrix, coefficients and intercept.", "quantifier": "every size, seed, supplied or generated coefficient vector", "why_tests_cant": "All draws and sizes; a wrong predictor still gives plausible random data.", "anchors": ["src/pyuoi/datasets/__init__.py::make_linear_regression", "src/pyuoi/datasets/__init__.py::make_poisson_regression"]}
{"id": "C96", "title": "NMF constructor arguments", "statement": "The NMF constructor raises ValueError exactly for the documented invalid arguments and accepts every other combination, including NumPy integers as seeds; an integer ranks means the ranks 2, ..., ranks.", "quantifier": "every combination of constructor arguments", "why_tests_cant": "Combinations of arguments.", "anchors": ["src/pyuoi/decomposition/NMF.py::UoI_NMF_Base.__init__", "src/pyuoi/decomposition/NMF.py::UoI_NMF_Base.__initialize"]}
{"id": "C97", "title": "The default line search: permitted steps and shrinking brackets", "statement": "The default (More-Thuente) line search evaluates the objective only on the ray, at steps between min_step and max_step or at the start. Each update of its interval of uncertainty, if the interval brackets a minimiser or is still open beyond a point of decrease, records true function values, keeps the better end, keeps bracketing with a strictly smaller interval, and puts the next trial within the previous bounds (and within 66% of the interval after a worse trial); a bracket that has not shrunk below 66% of its size two iterations ago is halved. A bracketing interval contains a stationary point no worse than its best end.", "quantifier": "every objective, direction, step, parameters, and every state of the interval", "why_tests_cant": "All functions along all rays; a search with wrong intervals still finds acceptable steps on simple functions.", "anchors": ["liblbfgs/lbfgs.c::line_search_morethuente", "liblbfgs/lbfgs.c::update_trial_interval"]}
{"id": "C98", "title": "The interpolations of the line search are exact", "statement": "On a ray where the objective is a cubic polynomial the cubic interpolation returns its local minimiser, strictly between the two steps, whenever the polynomial decreases from the first step towards the second and the second is worse or has slope away; the extrapolation returns the local minimiser beyond the second step if there is one and otherwise a bound; the quadratic interpolations return the stationary point of a quadratic from any two steps. Each new trial is the interpolation that the algorithm prescribes: after a worse trial the cubic if it is closer to the best step than the quadratic, else the middle of the two; after a slope of the other sign the further of cubic and secant; after a smaller slope of the same sign the closer of extrapolation and secant once a minimiser is bracketed, else the further; otherwise the cubic towards the other end, or the bound in the direction of the search.", "quantifier": "every polynomial and pair of steps", "why_tests_cant": "All polynomials; a wrong interpolation formula only slows the search down.", "anchors": ["liblbfgs/lbfgs.c::CUBIC_MINIMIZER", "liblbfgs/lbfgs.c::CUBIC_MINIMIZER2", "liblbfgs/lbfgs.c::QUARD_MINIMIZER", "liblbfgs/lbfgs.c::QUARD_MINIMIZER2"]}
{"id": "C99", "title": "scikit-learn's parameter protocol on the UoI linear models", "statement": "get_params() of a UoI linear model returns every constructor parameter with the value passed (or the default), so that clone, repr and set_params work. (False: it raises AttributeError for every object of the four classes, as does every set_params with arguments; the parameters that are kept are listed.)", "quantifier": "all four estimators and all keyword arguments their constructors accept", "why_tests_cant": "All argument combinations; the test suite never clones or prints an estimator.", "anchors": ["src/pyuoi/linear_model/base.py::AbstractUoILinearModel.__init__", "src/pyuoi/linear_model/lasso.py::UoI_Lasso.__init__", "src/pyuoi/linear_model/elasticnet.py::UoI_ElasticNet.__init__", "src/pyuoi/linear_model/logistic.py::UoI_L1Logistic.__init__", "src/pyuoi/linear_model/poisson.py::UoI_Poisson.__init__"]}
{"id": "C100", "title": "Constructor arguments reach the solvers", "statement": "fit_intercept, max_iter, tol and warm_start given to a UoI linear model are those of its selection model (warm_start except with pycasso); fit_intercept, and for the logistic and Poisson estimators max_iter and tol, are also those of the estimation model. Scores use the training rows for estimation_target='train', the test rows for 'test', and without a target the training rows exactly for the information criteria. An integer seed is used with the rank added if there is a communicator. Without arguments a class uses the documented defaults: 24 and 24 bootstraps, fractions 0.9 (Poisson 0.8), stability selection 1, intercept and standardization on, 48 penalties, scores r2, acc or log on held-out rows. An unknown score or target is a ValueError.", "quantifier": "all four estimators and all keyword arguments their constructors accept", "why_tests_cant": "All argument values; a dropped argument changes results only slightly.", "anchors": ["src/pyuoi/linear_model/lasso.py::UoI_Lasso.__init__", "src/pyuoi/linear_model/elasticnet.py::UoI_ElasticNet.__init__", "src/pyuoi/linear_model/logistic.py::UoI_L1Logistic.__init__", "src/pyuoi/linear_model/poisson.py::UoI_Poisson.__init__"]}
{"id": "C101", "title": "The solver of UoI_Lasso", "statement": "UoI_Lasso accepts solver='cd' and 'pyc' (the latter only with pycasso installed and with an intercept) and then has the corresponding selection model; any other value is rejected. (False for other values: they are accepted and the fit stops with AttributeError.)", "quantifier": "all values of solver and all other arguments", "why_tests_cant": "All values of the argument.", "anchors": ["src/pyuoi/linear_model/lasso.py::UoI_Lasso.__init__"]}
{"id": "C102", "title": "The wrapper of the pycasso solver", "statement": "PycLasso predicts only after a fit, then inner product plus intercept for every sample and penalty; the selection sweep returns the solver's coefficients for exactly the given penalties in their order; all constructor parameters can be changed by set_params. (False for tol: it raises ValueError, after changing the parameters named before it.)", "quantifier": "all solvers, data, penalties and parameters", "why_tests_cant": "pycasso is optional and the tests are skipped without it.", "anchors": ["src/pyuoi/linear_model/lasso.py::PycLasso", "src/pyuoi/linear_model/lasso.py::UoI_Lasso.uoi_selection_sweep"]}
{"id": "C103", "title": "The minimiser stops at the first iteration that meets a test", "statement": "With a progress callable that returns 0, fmin_lbfgs's minimiser stops at the first iteration whose gradient is small (norm at most epsilon times max(1, norm of x)) or whose objective changed by less than the fraction delta compared with exactly past iterations before; the status tells which test held, and after an error (iteration limit, failed search) none held.", "quantifier": "all objective functions, starts and accepted parameters", "why_tests_cant": "All histories of values; the delta test is never exercised.", "anchors": ["liblbfgs/lbfgs.c::lbfgs"]}
{"id": "C104", "title": "The intercept of a classifier is re-fitted by maximum likelihood", "statement": "After averaging the coefficients UoI_L1Logistic re-fits the intercepts: the optimiser is given the average negative log-likelihood of the labels for the fixed coefficients and its exact gradient; no intercepts are better than the result by more than the remaining gradient times the distance; at a stationary result the average predicted probability of every class is its frequency in the data; intercepts of several classes are shifted to maximum 0 without effect on predictions.", "quantifier": "all data, coefficients, labels, numbers of classes, and all answers of the optimiser", "why_tests_cant": "Optimality quantifies over all intercepts; a wrong gradient only stops the optimiser early.", "anchors": ["src/pyuoi/linear_model/logistic.py::fit_intercept_fixed_coef"]}
{"id": "C105", "title": "Scores by log-likelihood are about the sample's own class", "statement": "With estimation_score='log' UoI_L1Logistic scores a candidate by the mean log-probability the candidate gives to the classes of the samples, so that a candidate with higher likelihood has a higher score. (False unless the labels are 0, 1, ..., k-1 or, for two classes, the larger one is 1: with labels 1 and 2 the score is the mean log-probability of the first class.)", "quantifier": "all labels, samples and tables of probabilities", "why_tests_cant": "The tests use labels 0..k-1 only; for others no exception is raised and a model is still returned.", "anchors": ["src/pyuoi/linear_model/base.py::AbstractUoIGeneralizedLinearRegressor._score_predictions"]}
{"id": "C106", "title": "UoI_L1Logistic predicts training labels, and their names do not matter", "statement": "A fitted UoI_L1Logistic predicts for every row one of the labels it was trained on. Renaming the classes by an order-preserving map renames the predictions and changes neither coefficients nor intercepts. (The renaming part is false with estimation_score='log'.) With two classes the second label is predicted exactly for positive decision values.", "quantifier": "all labels, renamings, rows and training procedures of the right shape", "why_tests_cant": "A relation between two fits over all renamings.", "anchors": ["src/pyuoi/linear_model/logistic.py::UoI_L1Logistic", "src/pyuoi/linear_model/base.py::AbstractUoIGeneralizedLinearRegressor.fit"]}
{"id": "C107", "title": "MaskedCoefLogisticRegression predicts training labels", "statement": "A fitted MaskedCoefLogisticRegression predicts for every row one of the labels it was trained on. (False unless the labels are 0, 1, ..., k-1: it predicts the position of the label in the sorted list of labels.)", "quantifier": "all labels, rows and solvers", "why_tests_cant": "The tests fit encoded labels only.", "anchors": ["src/pyuoi/linear_model/logistic.py::MaskedCoefLogisticRegression.fit"]}
{"id": "C108", "title": "Class weights apply to the labels they are given for", "statement": "A class_weight dictionary of MaskedCoefLogisticRegression multiplies the weight of each sample by the entry of its label; 'balanced' gives all classes the same total weight. (False for dictionaries unless the labels are 0, 1, ..., k-1.)", "quantifier": "all labels, dictionaries and sample weights", "why_tests_cant": "No test uses class_weight with other labels; wrong weights raise no exception.", "anchors": ["src/pyuoi/linear_model/logistic.py::_logistic_regression_path", "src/pyuoi/linear_model/logistic.py::MaskedCoefLogisticRegression.fit"]}
{"id": "C109", "title": "Integer sample weights act like repeated rows", "statement": "Fitting a logistic or Poisson model with the integer sample weight m for a row has the same solutions as fitting it to data in which that row occurs m times. (True without penalty; with a penalty the objective is the one of the repeated rows with the penalty multiplied by the ratio of the numbers of rows, so the solutions differ.)", "quantifier": "all data, weights, masks, coefficients and intercepts", "why_tests_cant": "Equality of objective functions at every point.", "anchors": ["src/pyuoi/linear_model/logistic.py::_logistic_loss_and_grad", "src/pyuoi/linear_model/logistic.py::_multinomial_loss_grad", "src/pyuoi/linear_model/poisson.py::_poisson_loss_and_grad"]}
{"id": "C110", "title": "A class that is missing from a bootstrap is noticed", "statement": "Without stratification a training set may lack a class. A UoI_L1Logistic fit that completes has drawn only training sets with all classes: otherwise ValueError is raised. (True of the selection bootstraps for two or more features and of the estimation bootstraps if some candidate has two features. False otherwise: with three classes and a candidate of one feature the single coefficient of the two classes present is copied to all three.)", "quantifier": "all labels, draws, solvers of the right shape and candidates", "why_tests_cant": "Depends on rare draws; in the false case no exception is raised.", "anchors": ["src/pyuoi/linear_model/base.py::AbstractUoILinearModel.fit", "src/pyuoi/linear_model/logistic.py::MaskedCoefLogisticRegression.fit"]}
{"id": "C111", "title": "The candidate supports of a fit are the stable supports of its selection fits", "statement": "After a serial fit the distinct candidate supports are exactly the sets of coefficients that are nonzero in at least t of the selection bootstraps at one regularization parameter, t running over the selection thresholds, where the coefficients of a bootstrap come from the selection solver, reset before the bootstrap and fitted on its training rows for all parameters in turn. With shared supports a feature belongs to a candidate if the coefficient of some output has enough votes. (False of a single threshold with a single parameter, and of a single coefficient, see C03, C04 and C06.)", "quantifier": "all data, draws, solvers, grids, thresholds and numbers of bootstraps", "why_tests_cant": "The votes pass through a three-dimensional array whose axes are reshaped and reduced twice; tests compare only final coefficients.", "anchors": ["src/pyuoi/linear_model/base.py::AbstractUoILinearModel.fit", "src/pyuoi/linear_model/base.py::AbstractUoILinearModel.uoi_selection_sweep", "src/pyuoi/linear_model/utils.py::intersection"]}
{"id": "C112", "title": "The line search named by the caller is the one carried out", "statement": "In an unpenalised fmin_lbfgs call every move between consecutive points passed to the progress callable obeys the conditions documented for the given line_search: sufficient decrease always, the curvature condition for 'wolfe' and 'strongwolfe', the strong one (with wolfe) for 'strongwolfe' and (with gtol) for 'morethuente' and 'default'. The backtracking searches fail only if their last trial violates the named conditions. An unknown name raises KeyError before any evaluation; with a penalty every name, known or not, is replaced by 'wolfe', with a warning unless it was 'wolfe' or 'default'.", "quantifier": "all objectives, starting points, parameters and executions", "why_tests_cant": "A wrong entry in the table of names changes only which steps are accepted; the minimum found is usually the same.", "anchors": ["src/pyuoi/lbfgs/__init__.py::fmin_lbfgs", "src/pyuoi/lbfgs/_lowlevel.pyx::_LINE_SEARCH_ALGO", "liblbfgs/lbfgs.c::line_search_backtracking", "liblbfgs/lbfgs.c::line_search_morethuente"]}
{"id": "C113", "title": "fit_transform is fit followed by transform, and transform checks its data", "statement": "fit_transform of UoI_CUR and CUR returns one row per sample made of the entries in the selected columns, the same as transform after fit, and leaves the object fitted; fit_transform of UoI_NMF returns for every sample the regressor's weights for the fitted components. If the fit raises, the exception reaches the caller and a UoI_CUR or CUR object is unchanged. transform of an object that was not fitted raises NotFittedError, and data with another number of features than those of the fit are refused.", "quantifier": "all data, constructor arguments, random states and outcomes of the solvers", "why_tests_cant": "Tests transform the training data only; a matrix with additional or missing columns is accepted silently as long as the selected indices exist.", "anchors": ["src/pyuoi/decomposition/CUR.py::UoI_CUR.fit_transform", "src/pyuoi/decomposition/CUR.py::UoI_CUR.transform", "src/pyuoi/decomposition/CUR.py::CUR.transform", "src/pyuoi/decomposition/CUR.py::CUR.fit_transform", "src/pyuoi/decomposition/NMF.py::UoI_NMF_Base.fit_transform"]}
{"id": "C114", "title": "The default line search is exact on quadratics", "statement": "On an objective that is quadratic along the search direction with positive curvature, the default (More-Thuente) line search of fmin_lbfgs succeeds: if the step times 1, 5, 21, ... (4^(k+1)-1)/3 reaches the minimiser, it needs at most k+2 evaluations, and the step it takes is the minimiser along the direction, the minimiser shortened by the factor 1-ftol, or one of these multiples of the first step.", "quantifier": "all quadratic objectives in any dimension, points, descent directions, first steps and parameters with ftol <= 1/2, ftol <= gtol < 1, xtol <= 3/4 whose step limits contain the trials", "why_tests_cant": "All quadratics, directions and steps; a search with a wrong interval or interpolation still finds some acceptable step after more evaluations.", "anchors": ["liblbfgs/lbfgs.c::line_search_morethuente", "liblbfgs/lbfgs.c::update_trial_interval"]}
{"id": "C115", "title": "A candidate without features is scored as the best constant model", "statement": "During estimation a candidate without features is scored with the predictions of the best constant model of the training rows: for linear models its r2 is never positive and its information criteria are the best of all constants; for Poisson it predicts the mean count and has the largest log-likelihood of all constants; for classifiers it has the largest accuracy of all constant predictions and the largest log-likelihood of all constant probability vectors. The score is that of the model which is returned if the candidate wins, with or without fit_intercept.", "quantifier": "all responses, training and evaluation rows, and metrics", "why_tests_cant": "All responses; the empty candidate rarely wins on test data, and with fit_intercept=False the wrong score only shows in the choice of the support.", "anchors": ["src/pyuoi/linear_model/base.py::AbstractUoILinearModel.fit", "src/pyuoi/linear_model/base.py::LinearInterceptFitterNoFeatures", "src/pyuoi/linear_model/base.py::AbstractUoILinearRegressor._score_predictions", "src/pyuoi/linear_model/poisson.py::PoissonInterceptFitterNoFeatures", "src/pyuoi/linear_model/logistic.py::LogisticInterceptFitterNoFeatures"]}
{"id": "C116", "title": "On strongly convex, smooth objectives the number of iterations is bounded and every call ends", "statement": "If the gradient of the objective is strongly monotone with constant mu and Lipschitz with constant L and the objective is at least B, a call of fmin_lbfgs without a penalty makes at most (f(x0) - B) / (ftol * t * l * epsilon^2) iterations (one more with 'armijo'), where t and l are positive numbers given by mu, L, the memory size and the coefficients of the line search; so it ends even with max_iterations=0. If convergence is reported, the distance of the result to the minimiser is at most epsilon * max(1, |x|) / mu.", "quantifier": "all dimensions, objectives with these properties, starting points, memory sizes >= 1, epsilon > 0, ftol > 0, line searches (More-Thuente with gtol < 1, 'wolfe', 'strongwolfe', 'armijo' with ftol < 1) and progress callables", "why_tests_cant": "A statement about the number of iterations on all such objectives; a memory handled wrongly, or a search that accepts too short steps, still converges on the test problems.", "anchors": ["liblbfgs/lbfgs.c::lbfgs", "liblbfgs/lbfgs.c::line_search_backtracking", "liblbfgs/lbfgs.c::line_search_morethuente", "src/pyuoi/lbfgs/__init__.py::fmin_lbfgs"]}
{"id": "C117", "title": "fmin_lbfgs with 'armijo' always finds the minimiser of a strongly convex, smooth objective", "statement": "On a strongly convex, smooth objective that is bounded below, fmin_lbfgs with line_search='armijo', epsilon > 0, 0 < ftol < 1, without the delta-based stop, without a limit on the iterations, with a progress callable that returns None or 0, and with a max_linesearch, min_step and max_step that leave room for the steps the objective needs, returns without a warning a point whose gradient is at most epsilon * max(1, |x|) and whose distance to the minimiser is at most epsilon * max(1, |x|) / mu. No line search of such a call fails.", "quantifier": "all dimensions, objectives with these properties, starting points, memory sizes and parameters in the stated ranges", "why_tests_cant": "Total correctness for all objectives of the class and all starting points.", "anchors": ["liblbfgs/lbfgs.c::lbfgs", "liblbfgs/lbfgs.c::line_search_backtracking", "src/pyuoi/lbfgs/__init__.py::fmin_lbfgs", "src/pyuoi/lbfgs/_lowlevel.pyx::LBFGS.minimize"]}
{"id": "C118", "title": "fmin_lbfgs with its default line search always finds the minimiser of a strongly convex quadratic", "statement": "On a quadratic whose matrix has its eigenvalues between mu > 0 and L, fmin_lbfgs with its default line search, epsilon > 0, 0 < ftol <= 1/2, ftol <= gtol < 1, without the delta-based stop, without a limit on the iterations, with a progress callable that returns None or 0, and with a max_linesearch, min_step and max_step that leave room for the steps the quadratic needs, returns without a warning a point whose gradient is at most epsilon * max(1, |x|) and whose distance to the minimiser is at most epsilon * max(1, |x|) / mu. With the default values of all parameters this covers, for instance, eigenvalues between 1 and 2 and all starting points with a gradient of norm at most a million.", "quantifier": "all dimensions, quadratics, starting points, memory sizes and parameters in the stated ranges", "why_tests_cant": "Total correctness for all quadratics of the class and all starting points; the rounding-error exit codes of the line search depend on every branch of its step update.", "anchors": ["liblbfgs/lbfgs.c::lbfgs", "liblbfgs/lbfgs.c::line_search_morethuente", "liblbfgs/lbfgs.c::update_trial_interval", "src/pyuoi/lbfgs/__init__.py::fmin_lbfgs", "src/pyuoi/lbfgs/_lowlevel.pyx::LBFGS.minimize"]}
{"id": "C119", "title": "The minimiser does not depend on the order, the signs or the axes of the variables", "statement": "If the variables of an objective are put into another order or some of their signs are changed, without exchanging penalised and unpenalised variables, fmin_lbfgs started at the corresponding point evaluates the corresponding points, in the same order, and ends with the corresponding result, the same warning or the same exception. Without a penalty the same holds for every rotation of the coordinate system.", "quantifier": "all dimensions, objectives, progress callables, arguments, starting points, orders, signs and rotations", "why_tests_cant": "A relation between two runs of arbitrary length on arbitrary objectives; an index that is off by one in the memory or in the penalised range can be invisible on symmetric test problems.", "anchors": ["liblbfgs/lbfgs.c::lbfgs", "liblbfgs/lbfgs.c::owlqn_pseudo_gradient", "liblbfgs/lbfgs.c::owlqn_project", "liblbfgs/lbfgs.c::owlqn_x1norm", "src/pyuoi/lbfgs/__init__.py::fmin_lbfgs", "src/pyuoi/lbfgs/_lowlevel.pyx::LBFGS.minimize"]}
{"id": "C120", "title": "The order and the signs of the features and the order of the samples do not matter to Poisson and L1 logistic fits", "statement": "If the columns of X are put into another order or multiplied by -1 (and with them the previous or starting coefficients and the coefficient mask), Poisson.fit with solver 'lbfgs' and MaskedCoefLogisticRegression.fit with penalty 'l1' give the coefficients in that order and with those signs, the same intercepts and the same warning or exception. Putting the samples into another order, with their responses and weights, changes nothing.", "quantifier": "all data, settings, previous states, orders of features and samples, and signs", "why_tests_cant": "A relation between two runs of an iterative optimiser; tests compare fits with the truth on one order of the features only.", "anchors": ["src/pyuoi/linear_model/poisson.py::Poisson.fit", "src/pyuoi/linear_model/poisson.py::_poisson_loss_and_grad", "src/pyuoi/linear_model/logistic.py::_logistic_regression_path", "src/pyuoi/linear_model/logistic.py::_multinomial_loss_grad", "src/pyuoi/linear_model/logistic.py::_logistic_loss_and_grad", "liblbfgs/lbfgs.c::lbfgs"]}
{"id": "C121", "title": "The order of the features does not matter to a UoI fit", "statement": "If the columns of X are put into another order and the selection and estimation solvers' own results do not depend on that order, then with the same seed the candidate supports of the UoI fit are the same sets of features, every candidate has the same score and estimates in every bootstrap, and coef_ is the same up to the order and intercept_ the same, provided that in every bootstrap one candidate has the best score.", "quantifier": "all solvers, data, seeds and orders of the features; one output, or several classes with shared_support", "why_tests_cant": "A relation between two complete fits, for any solver; the tests fit each data set in one order.", "anchors": ["src/pyuoi/linear_model/base.py::AbstractUoILinearModel.fit", "src/pyuoi/linear_model/base.py::AbstractUoIGeneralizedLinearRegressor.intersect", "src/pyuoi/linear_model/utils.py::intersection"]}
{"id": "C122", "title": "MaskedCoefLogisticRegression with standardize=True predicts as it was fitted", "statement": "After MaskedCoefLogisticRegression(standardize=True).fit(X, y) the decision values of the object at a row are those of the fitted model at the standardised row, adding constants to the features does not matter, and a warm-started second fit starts at the solution of the first.", "quantifier": "all data, labels, masks, solvers and earlier states of the object", "why_tests_cant": "The tests of standardize look at one data set; the claim is about every row and any history of fits.", "anchors": ["src/pyuoi/linear_model/logistic.py::MaskedCoefLogisticRegression.fit", "src/pyuoi/linear_model/logistic.py::MaskedCoefLogisticRegression._pre_fit", "src/pyuoi/linear_model/logistic.py::MaskedCoefLogisticRegression._post_fit"]}
{"id": "C123", "title": "A failed fit of MaskedCoefLogisticRegression does no harm", "statement": "If fit raises, the object keeps the model it had, settings that are not positive numbers are refused with ValueError before anything is changed, and later fits of good data succeed.", "quantifier": "all settings, data, labels, masks, earlier states and sequences of later fits", "why_tests_cant": "Tests check that bad settings raise, not the state of the object afterwards or any sequence of later calls.", "anchors": ["src/pyuoi/linear_model/logistic.py::MaskedCoefLogisticRegression.fit", "src/pyuoi/linear_model/logistic.py::_logistic_regression_path"]}
{"id": "C124", "title": "A failed fit of a UoI model leaves the earlier model in use", "statement": "If a call of fit on an already fitted UoI estimator raises, at whatever step, predict, predict_proba and decision_function give afterwards what they gave before the call; data rejected by the first checks change nothing at all, and a failed fit has no influence on later ones.", "quantifier": "all estimators, earlier states, data sets and points of failure", "why_tests_cant": "Tests of errors construct an estimator, expect the exception and throw the estimator away; the point of failure ranges over every draw, solver call and score.", "anchors": ["src/pyuoi/linear_model/base.py::AbstractUoILinearModel.fit", "src/pyuoi/linear_model/logistic.py::UoI_L1Logistic._pre_fit", "src/pyuoi/linear_model/logistic.py::UoI_L1Logistic._fit_intercept", "src/pyuoi/linear_model/base.py::AbstractUoILinearModel._post_fit"]}
{"id": "C125", "title": "The candidate with the smallest held-out error is chosen", "statement": "With estimation_score='r2' (the default of UoI_Lasso and UoI_ElasticNet) the support chosen in an estimation bootstrap is the first of those whose model has the smallest squared error on the held-out rows.", "quantifier": "all numbers of samples, held-out responses, numbers of candidates and predictions", "why_tests_cant": "Tests fit well-conditioned data with many samples; the claim is about every set of held-out rows, including single rows and equal responses.", "anchors": ["src/pyuoi/linear_model/base.py::AbstractUoILinearRegressor._score_predictions", "src/pyuoi/linear_model/base.py::AbstractUoILinearModel.fit"]}
{"id": "C126", "title": "An LBFGS object keeps its settings and minimises over arrays of any shape", "statement": "Each attribute of an LBFGS object reads as the last value accepted for it, whatever else was assigned, refused or minimised in between, and what was read can be assigned again. fmin_lbfgs passes its arguments on unchanged or raises. minimize returns an array of the shape of x0, calls the objective only on arrays of that shape, and depends only on the elements of x0; a progress callable is called at every iteration and the message about an argument that cannot be called names its type. The defaults of fmin_lbfgs and of a new LBFGS object are the documented ones.", "quantifier": "for all sequences of assignments and minimisations on one object, all values, all shapes and sizes of x0, all callables", "why_tests_cant": "Tests use fmin_lbfgs with vectors and small integers; objects are never reused, and neither 32-bit overflow, arrays of several dimensions nor callables that count as false occur in them.", "anchors": ["src/pyuoi/lbfgs/_lowlevel.pyx", "src/pyuoi/lbfgs/__init__.py", "liblbfgs/lbfgs.c"]}
{"id": "C127", "title": "Synthetic data have the requested noise and determine their coefficients", "statement": "The noise that make_linear_regression adds has the variance of the signal divided by snr, for every size of data set and every number of informative features. The samples of make_classification have features of mean zero and mean square one, and two sets of coefficients with different supports give different class probabilities.", "quantifier": "for all sizes, numbers of informative features, coefficients, intercepts, signal-to-noise ratios and random draws", "why_tests_cant": "Tests generate a few data sets with default settings and check shapes; that a signal without variation gets no noise, or that class probabilities do not determine the coefficients, is a statement about all draws.", "anchors": ["src/pyuoi/datasets/__init__.py"]}
{"id": "C128", "title": "load_swimmer returns one image per row wherever the package is installed", "statement": "load_swimmer() returns an array whose row s contains every pixel of image s exactly once, column after column, and it succeeds whenever the data file can be read.", "quantifier": "for all contents of the data file and all permissions", "why_tests_cant": "The tests do not load the data set, and run with write access to the package.", "anchors": ["src/pyuoi/datasets/__init__.py"]}
{"id": "C129", "title": "Noise-free linear data are recovered exactly", "statement": "If the response is an exact affine function of the features (linear when fit_intercept is off) and some candidate support holds all features it uses, UoI linear regression with estimation_score='r2' returns exactly the true coef_ and intercept_, with or without standardization; it suffices that the conditions hold in more than half of the estimation bootstraps. A feature that is in no candidate support gets coefficient zero. In each estimation bootstrap whose test responses vary, the coefficients are those of a candidate with the smallest squared error on the test rows, where the empty candidate predicts the mean training response.", "quantifier": "for all designs, true coefficients, candidate supports, bootstraps and least squares solvers", "why_tests_cant": "Tests check recovery on a few random data sets up to a tolerance; that a smaller candidate ties with the truth on the few held-out rows, and is preferred, does not occur on them.", "anchors": ["src/pyuoi/linear_model/base.py", "src/pyuoi/linear_model/lasso.py"]}
{"id": "C130", "title": "The fits of a classifier have a solution", "statement": "Every estimation fit of UoI_L1Logistic minimises an objective that has a minimiser, so that coef_ approximates a solution. With the C=inf of UoI_L1Logistic this holds exactly if no coefficients on the support separate the classes of the training samples, not even weakly (two classes, or several with a support per class); with a finite C, or the L1 penalty of selection fits, there is a minimiser whenever all classes are present or no intercept is fitted. Any two solutions of a fit give the training samples the same probabilities.", "quantifier": "for all data, labels, supports and penalties", "why_tests_cant": "A test sees that the optimiser stops, which it does at a small gradient even where no solution exists; that no parameters are optimal is a statement about all of them.", "anchors": ["src/pyuoi/linear_model/logistic.py"]}
{"id": "C131", "title": "A Poisson fit of counts that are not constant has a solution", "statement": "Every Poisson fit that the estimation step of UoI_Poisson makes to nonnegative counts that are not constant has a maximum-likelihood solution, and any two solutions predict the same means on the training rows. (The first part is false: there is no solution exactly if some linear score is zero on every row with a positive count, not positive on the others, and negative somewhere, for instance for a feature that is nonzero only where nothing was counted; then the stopping test of the solver is met at arbitrarily large coefficients. With any positive penalty there is a solution.)", "quantifier": "all design matrices, nonnegative responses, with or without intercept, all penalties", "why_tests_cant": "Whether a maximum exists is a statement about all coefficient vectors; a run ends at some point in any case, at the iteration limit or by the stopping test, and reports coefficients.", "anchors": ["src/pyuoi/linear_model/poisson.py"]}
{"id": "C132", "title": "An information criterion picks the candidate that trades fit against size best", "statement": "In each estimation bootstrap a UoI linear regressor with estimation_score 'BIC', 'AIC' or 'AICc' chooses the first candidate with the least m log(rss/m) plus the price of its features on the m training rows, so among equally good candidates the smaller one; and on noise-free data it returns the true coefficients and intercept if in most bootstraps a candidate holds all true features and the training rows tell the candidates apart. (The first part is false for candidates that are exact on the training rows: their score is infinite and the first exact one is chosen whatever its size, for instance two features instead of the one they add up to.)", "quantifier": "all data, lists of candidates, bootstraps, least squares solvers, the three criteria, standardized or not, with or without intercept", "why_tests_cant": "The choice depends on real-valued comparisons among any number of candidates; exact fits, where the criterion degenerates, do not occur with random noise.", "anchors": ["src/pyuoi/linear_model/base.py", "src/pyuoi/utils.py"]}
{"id": "C133", "title": "The number of columns asked for is the number selected on average", "statement": "column_select, CUR.fit and UoI_CUR.fit select on average as many columns as their argument c (cs) says. For column_select and CUR this holds exactly if no leverage score exceeds 1/c; the average is never larger than c, nor than the number of columns. For UoI_CUR it is at most the sum of cs times the number of bootstraps over the threshold.", "quantifier": "for all singular vectors, ranks, numbers of columns, bootstraps and thresholds, and all probability spaces with uniform draws", "why_tests_cant": "An expectation over unseeded random draws; a test sees a few samples of it.", "anchors": ["src/pyuoi/decomposition/utils.py::column_select", "src/pyuoi/decomposition/CUR.py"]}
{"id": "C134", "title": "The 'wolfe' and 'strongwolfe' searches find the minimiser of strongly convex objectives", "statement": "fmin_lbfgs with line_search 'wolfe' or 'strongwolfe', without the delta-based stop and without a limit on the iterations, on a strongly convex objective with a Lipschitz gradient always returns, without a warning, a point at which the gradient is at most epsilon * max(1, |x|) and which is within epsilon * max(1, |x|) / mu of the minimiser, provided the limits on the step length and on the number of trials are wide enough. This holds for quadratics of any condition number and for other objectives with a condition number up to about 4.7.", "quantifier": "for all strongly convex quadratics, all well-conditioned strongly convex smooth objectives, all starting points and all parameters that leave enough room for the search", "why_tests_cant": "Termination and accuracy for every objective and starting point; whether the search oscillates depends on the ratio of the acceptable step lengths, which samples do not cover.", "anchors": ["liblbfgs/lbfgs.c::line_search_backtracking", "liblbfgs/lbfgs.c::lbfgs", "src/pyuoi/lbfgs/__init__.py::fmin_lbfgs", "src/pyuoi/lbfgs/_lowlevel.pyx::LBFGS.minimize"]}
{"id": "C135", "title": "The order and repetition of stability_selection values, penalties and bootstraps", "statement": "The stability_selection argument acts as a set: a list or array with the same values in another order is accepted or rejected alike and the fitted model is identical on every process, and giving a value more than once makes no difference. The candidate supports do not depend on the order of the selection bootstraps or of the penalties either, and more thresholds or more penalties only add candidates.", "quantifier": "for all arguments, data, estimators, numbers of processes and ranks", "why_tests_cant": "Every order and every repetition of the values on every number of processes, for any selection estimator; tests use one order, and the exception (a single threshold with a single penalty) shows only at one combination of lengths.", "anchors": ["src/pyuoi/linear_model/utils.py::stability_selection_to_threshold", "src/pyuoi/linear_model/utils.py::intersection", "src/pyuoi/linear_model/base.py::AbstractUoILinearModel.fit"]}
{"id": "C136", "title": "fmin_lbfgs with an L1 penalty ends, and finds the minimiser unless a line search fails", "statement": "On a strongly convex, smooth objective that is bounded below, with orthantwise_c > 0 on any range of the variables, epsilon > 0, 0 < ftol < 1, without the delta-based stop and without a limit on the iterations, fmin_lbfgs always ends, after a number of iterations that is bounded in terms of the constants of the objective, the parameters, the dimension and the value at the starting point (and independent of max_linesearch if all variables are penalised). With a progress callable that returns None or 0 and max_step >= max(1, 1/epsilon), it returns without a warning a point whose distance to the minimiser of the penalised objective is at most epsilon * max(1, |x|) / mu, whatever line_search was asked for. The only other outcomes are a line search that fails, with the warning about the number of trials, or (if min_step > 0) with LBFGSError.", "quantifier": "all dimensions, objectives with these properties, starting points, memory sizes and parameters in the stated ranges", "why_tests_cant": "Termination of all calls on all objectives of a class from all starting points; tests run single problems, and a failed line search is seen only near particular orthant boundaries.", "anchors": ["liblbfgs/lbfgs.c::lbfgs", "liblbfgs/lbfgs.c::line_search_backtracking_owlqn", "liblbfgs/lbfgs.c::owlqn_pseudo_gradient", "src/pyuoi/lbfgs/__init__.py::fmin_lbfgs", "src/pyuoi/lbfgs/_lowlevel.pyx::LBFGS.minimize"]}
{"id": "C137", "title": "A Poisson model predicts the most probable count", "statement": "predict of a fitted Poisson model (also one fitted to a response of zeros, with the intercept minus infinity) returns for each sample the most probable count of the Poisson distribution whose mean predict_mean returns; where two counts are equally probable (the mean is a positive integer) it returns the larger.", "quantifier": "all coefficients, intercepts and samples", "why_tests_cant": "Comparison with all counts, for all means; the tests compare with the floor of the mean, which is the code itself.", "anchors": ["src/pyuoi/linear_model/poisson.py::Poisson.predict", "src/pyuoi/linear_model/poisson.py::Poisson.predict_mean"]}
{"id": "C138", "title": "Iterations of the coordinate-descent Poisson solver do not increase the objective", "statement": "No iteration of Poisson(solver='cd') increases the penalised objective, so a cold fit is never worse than its starting point (all coefficients and the intercept zero). (False: the step is a full Newton step. For every data set with a mean response of at least three and a penalty at or above the critical one, the fit that is reported as converged is worse than the starting point and predicts exp(mean - 1) instead of the mean.)", "quantifier": "all data, penalties, tolerances and iteration limits", "why_tests_cant": "The tests use responses with small means and small penalties, and compare the coefficients only.", "anchors": ["src/pyuoi/linear_model/poisson.py::Poisson._cd", "src/pyuoi/linear_model/poisson.py::Poisson._cd_sweep", "src/pyuoi/linear_model/poisson.py::Poisson.adjusted_response"]}
{"id": "C139", "title": "The coordinate-descent Poisson solver with sample weights solves the weighted problem of the L-BFGS solver", "statement": "With sample weights that are not negative (one of them positive), a coordinate-descent sweep over all features leaves coefficients and intercept where they are exactly if they minimise 1/n sum sw_i (exp(eta_i) - y_i eta_i) + alpha (l1_ratio |coef|_1 + (1 - l1_ratio)/2 |coef|^2), the objective of the L-BFGS solver (over coefficients and intercept; the intercept is zero without fit_intercept). Two such points predict the same mean for every sample of positive weight. Samples of weight zero do not influence what the solver returns, multiplying the weights and alpha by the same positive number changes nothing, and no weights mean unit weights.", "quantifier": "For all data, all non-negative sample weights with a positive one, all alpha >= 0 and l1_ratio in [0, 1], with a nonzero entry of positive weight in every feature or an L2 penalty; the last three claims for all inputs, tolerances and iteration limits.", "why_tests_cant": "Optimality is a claim about all other coefficient vectors and intercepts; tests compare with a single reference solution, without weights.", "anchors": ["src/pyuoi/linear_model/poisson.py:180-250", "src/pyuoi/linear_model/poisson.py:252-308", "src/pyuoi/linear_model/poisson.py:346-376", "src/pyuoi/linear_model/poisson.py:701-751"]}
{"id": "C140", "title": "The SSE2 build of the optimiser computes what the portable build computes", "statement": "Compiled with SSE2 vector instructions, the optimiser behaves as compiled without them, up to the order of additions: every vector routine replaces exactly the given entries by the values of the portable routine; with the number of variables rounded up to a multiple of eight and the extra entries zero, the results on the actual variables are those of the portable build and the extra entries stay zero; the same parameters are accepted; the line search takes the same decisions.", "quantifier": "For all numbers of variables and all vectors, exact arithmetic.", "why_tests_cant": "The SSE code is not compiled by setup.py, so no test reaches it; and lengths, padding and special values (zero derivatives) are unbounded.", "anchors": ["liblbfgs/arithmetic_sse_double.h:68-298", "liblbfgs/arithmetic_ansi.h:31-127", "liblbfgs/lbfgs.c:79-94", "liblbfgs/lbfgs.c:217-233", "liblbfgs/lbfgs.c:280-341"]}
{"id": "C141", "title": "A Poisson fit by coordinate descent of finite data is finite", "statement": "Fitting `Poisson(solver='cd')` to finite features and counts gives finite coefficients and a finite intercept, those of exact arithmetic as long as `exp` neither overflows nor underflows at the linear predictors of the iterations.", "quantifier": "for all finite feature matrices and counts, penalties, tolerances, iteration limits and limits of exp", "why_tests_cant": "The iterations start from zero coefficients and take full steps, so that whether they leave the range of exp depends on all of the data; the tests use small counts and features without constant columns.", "anchors": ["src/pyuoi/linear_model/poisson.py"]}
{"id": "C142", "title": "An objective that becomes undefined is noticed and the call ends", "statement": "If the objective passed to fmin_lbfgs returns NaN somewhere, no point with a NaN value is accepted: no iteration at such a point is reported to the progress callable, the call ends, and what it returns is the starting point or a point at which the (penalised) objective is not NaN. In particular a starting point with a NaN value gives an error and no iteration.", "quantifier": "all objectives, starting points, parameters, line searches and penalties, in every arithmetic with a NaN (whatever the other numbers and their rounding)", "why_tests_cant": "A test shows a call that ends; that a call never ends, and that no objective whatever gets a NaN point accepted by the default search, needs an argument over all executions.", "anchors": ["liblbfgs/lbfgs.c", "src/pyuoi/lbfgs/_lowlevel.pyx", "src/pyuoi/lbfgs/__init__.py"]}
{"id": "C143", "title": "The bootstraps train on the documented fraction of the samples", "statement": "With selection_frac or estimation_frac q, every bootstrap of the UoI linear models trains on floor(q * n_samples) samples and holds the others out; with boots_frac q a CUR bootstrap does the same, or takes all samples for q = 1.", "quantifier": "all fractions between 0 and 1, all numbers of samples, all roundings to nearest of the double-precision arithmetic (any rule for ties)", "why_tests_cant": "The result depends on the last bits of 1 - q and of its product with the number of samples; whether an off-by-one occurs depends on both numbers, and tests use one or two fractions with one size.", "anchors": ["src/pyuoi/linear_model/base.py", "src/pyuoi/linear_model/poisson.py", "src/pyuoi/decomposition/CUR.py"]}
{"id": "C144", "title": "make_classification draws its labels from the model it returns", "statement": "make_classification returns n_samples samples of n_features features, coefficients and intercepts for the classes, and labels 0 to n_classes - 1 that are drawn one after the other from the class probabilities (softmax, or logistic function for two classes) of the returned samples, coefficients and intercepts; an integer random_state stands for the generator seeded with it.", "quantifier": "all sizes, numbers of classes, random states and random number generators", "why_tests_cant": "Labels are random: a test sees one outcome and cannot tell which probabilities it came from, nor that they are those of the scaled coefficients and shifted intercepts that are returned.", "anchors": ["src/pyuoi/datasets/__init__.py", "src/pyuoi/utils.py"]}
{"id": "C145", "title": "A proportion given as stability_selection is the proportion of the bootstraps that is demanded", "statement": "With stability_selection a proportion p (or a list of them), the candidate supports are, for each p and each penalty, exactly the features selected in at least the proportion p of the selection bootstraps.", "quantifier": "all proportions between 0 and 1, numbers of bootstraps, selection coefficients, and roundings to nearest of the double-precision arithmetic", "why_tests_cant": "The threshold is the truncated double-precision product; whether it is off by one depends on the last bits of the proportion and on the number of bootstraps, and tests try a few pairs whose product is a safe integer.", "anchors": ["src/pyuoi/linear_model/utils.py::stability_selection_to_threshold", "src/pyuoi/linear_model/utils.py::intersection", "src/pyuoi/linear_model/base.py"]}
{"id": "C146", "title": "A proportion given to UoI_CUR is the proportion of the bootstraps that is demanded", "statement": "UoI_CUR with stability_selection a proportion p selects exactly the columns that, for some rank, were drawn in at least the proportion p of the bootstraps; a proportion of less than one bootstrap raises ValueError.", "quantifier": "all proportions between 0 and 1, numbers of bootstraps, matrices, ranks, column counts, draws, and roundings to nearest of the double-precision arithmetic", "why_tests_cant": "The threshold is the truncated double-precision product; whether it is one too small depends on the last bits of the proportion and on the number of bootstraps, and the draws are random.", "anchors": ["src/pyuoi/decomposition/utils.py::stability_selection_to_threshold", "src/pyuoi/decomposition/CUR.py::UoI_CUR.fit"]}
{"id": "C147", "title": "Predicted labels are the most probable ones", "statement": "predict_proba of a fitted UoI_L1Logistic or MaskedCoefLogisticRegression gives every sample a probability vector over the classes whose log-odds are the (differences of) decision values, and predict returns the first of the most probable classes. The candidate without features has the probabilities and predictions of the classifier with coefficients zero and its intercept.", "quantifier": "all labels, fitted coefficients and intercepts, samples, both values of multi_class, all class frequencies of the candidate without features", "why_tests_cant": "The binary, multinomial-binary and multi-class branches compute probabilities differently and break ties separately; tests compare accuracies on random data, where ties do not occur.", "anchors": ["src/pyuoi/linear_model/logistic.py::UoI_L1Logistic", "src/pyuoi/linear_model/logistic.py::MaskedCoefLogisticRegression", "src/pyuoi/linear_model/logistic.py::LogisticInterceptFitterNoFeatures", "src/pyuoi/linear_model/base.py"]}
{"id": "C148", "title": "Among equally good candidates the smaller support is chosen", "statement": "In every estimation bootstrap the chosen candidate support has the best score (for a classifier scored by accuracy: the most correctly predicted held-out labels), and no candidate with fewer features has the same score.", "quantifier": "all selection coefficients, thresholds, scores without NaN, held-out labels and predictions", "why_tests_cant": "Ties are frequent for accuracy on a few held-out samples, and which candidate wins depends on the order in which the unique supports happen to be listed; tests look at recovered supports of easy data.", "anchors": ["src/pyuoi/linear_model/base.py", "src/pyuoi/linear_model/utils.py::intersection"]}
{"id": "C149", "title": "The coefficients of a classifier are determined by its training samples", "statement": "If no feature of the support is a combination of the others (and of a constant where an intercept is fitted), the estimation fit of UoI_L1Logistic (MaskedCoefLogisticRegression with C=inf) has at most one solution: coef_ and intercept_ do not depend on where the optimiser starts. With multi_class='multinomial' solutions may at most differ by the same vector in all classes, the differences between classes are determined, and with a finite C of the L2 penalty the coefficients are determined and those of a feature used by all classes sum to zero.", "quantifier": "for all numbers of samples, features and classes, all supports (per class), all data, with and without intercepts, all starting vectors, all optimisers that move along combinations of gradients", "why_tests_cant": "A test fits one data set from one starting vector with one optimiser; that every solution agrees, or that a whole family of solutions exists, is a statement about all parameter vectors.", "anchors": ["src/pyuoi/linear_model/logistic.py"]}
{"id": "C150", "title": "Further penalties and stability_selection values never lower the best score", "statement": "Adding penalties or stability_selection values to a UoI linear model, with the same bootstraps and estimation fits, only adds candidates: in every estimation bootstrap the chosen candidate scores at least as well as before (by accuracy: it predicts at least as many held-out labels), and if it was a candidate before, it is the one chosen before.", "quantifier": "for all selection coefficients, all lists of thresholds and penalties and all lists that contain them, all score functions", "why_tests_cant": "A test compares two fits of one data set; the claim compares all pairs of nested candidate lists, including ties and the order in which candidates are listed.", "anchors": ["src/pyuoi/linear_model/base.py", "src/pyuoi/linear_model/utils.py"]}
{"id": "C151", "title": "The coefficients of a Poisson fit are determined by its training samples", "statement": "If no feature is a combination of the others (and of a constant where an intercept is fitted), all solutions of a Poisson fit with solver='lbfgs' have the same coef_ and intercept_, whatever alpha and l1_ratio; with an L2 part in the penalty this holds for all features. In the estimation fit of UoI_Poisson (alpha=0), where a solution exists, the coefficients are determined exactly if the features are independent in this sense.", "quantifier": "for all numbers of samples and features, all data, all penalties, with and without intercept, all pairs of solutions", "why_tests_cant": "That no second minimiser exists is a statement about all parameter vectors; a test sees the one at which the optimiser stops.", "anchors": ["src/pyuoi/linear_model/poisson.py"]}
