import Verif.Model.Utils
/-!
Model of the constructors' score arguments and of `_score_predictions` in the estimator classes
(`/repo/src/pyuoi/linear_model/base.py`, `logistic.py`, `poisson.py`), and of the constructor of
`UoI_Poisson`.
-/
namespace Verif.Scores
open Verif.Py Verif.Utils

/-- The estimator classes. -/
inductive Cls where
  | lasso | elasticNet | logistic | poisson
  deriving DecidableEq, Repr

/-- Whether the class derives from `AbstractUoILinearRegressor` (`lasso.py:118`,
    `elasticnet.py:10`) rather than `AbstractUoIGeneralizedLinearRegressor`. -/
def Cls.linear : Cls → Bool
  | .lasso | .elasticNet => true
  | .logistic | .poisson => false

/-- `_valid_estimation_metrics` (`base.py:495,673`, `logistic.py:108-109`). -/
def validMetrics : Cls → List String
  | .lasso | .elasticNet => ["r2", "AIC", "AICc", "BIC"]
  | .poisson => ["log", "BIC", "AIC", "AICc", "acc"]
  | .logistic => ["log", "BIC", "AIC", "AICc", "acc"] ++ ["acc"]

/-- `_default_est_targets` (`base.py:499,677-678`): 0 is 'train', 1 is 'test'. -/
def defaultTargets (c : Cls) : List (String × Nat) :=
  if c.linear then [("r2", 1), ("AIC", 0), ("AICc", 0), ("BIC", 0)]
  else [("log", 1), ("AIC", 0), ("AICc", 0), ("BIC", 0), ("acc", 1)]

/-- `_train_test_map` (`base.py:497,675`). -/
def trainTestMap : List (String × Nat) := [("train", 0), ("test", 1)]

/-- The part of the constructors that checks `estimation_score` and `estimation_target` and returns
    `_estimation_target` (`base.py:519-535,700-715`). -/
def ctorTarget (c : Cls) (score : String) (target : Option String) : Except PyErr Nat :=
  if score ∉ validMetrics c then .error .valueError
  else match target with
    | some t =>
      if t ∉ ["train", "test"] then .error .valueError
      else match trainTestMap.lookup t with
        | some i => .ok i
        | none => .error .keyError
    | none =>
      match (defaultTargets c).lookup score with
      | some i => .ok i
      | none => .error .keyError

/-- What the predictions of a candidate amount to on the rows chosen by the estimation target:
    `r2_score`, `accuracy_score`, `-log_loss` (per sample), the 'normal' log-likelihood, the
    'poisson' log-likelihood (per sample), `np.count_nonzero(support)`, `fitter.intercept_ != 0`, and
    the number of rows.  The log-likelihoods are finite here (special values: C30, C31). -/
structure Cand where
  r2 : ℝ
  acc : ℝ
  logProb : ℝ
  llNormal : ℝ
  llPoisson : ℝ
  k : Nat
  hasIntercept : Bool
  n : Nat

/-- `AbstractUoILinearRegressor._score_predictions` (`base.py:621-641`). -/
noncomputable def scoreLinear (metric : String) (c : Cand) : Except PyErr ℝ :=
  if metric = "r2" then .ok c.r2
  else if metric = "BIC" then .ok (-BIC c.llNormal c.k c.n)
  else if metric = "AIC" then .ok (-AIC c.llNormal c.k)
  else if metric = "AICc" then .ok (-AICc c.llNormal c.k c.n)
  else .error .valueError

/-- `AbstractUoIGeneralizedLinearRegressor._score_predictions` (`base.py:773-807`). -/
noncomputable def scoreGLM (metric : String) (c : Cand) : Except PyErr ℝ :=
  if metric = "acc" then .ok c.acc
  else if metric = "log" then .ok c.logProb
  else if metric = "BIC" then .ok (-BIC (c.n * c.logProb) c.k c.n)
  else if metric = "AIC" then .ok (-AIC (c.n * c.logProb) c.k)
  else if metric = "AICc" then .ok (-AICc (c.n * c.logProb) c.k c.n)
  else .error .valueError

/-- `UoI_Poisson._score_predictions` (`poisson.py:584-611`). -/
noncomputable def scorePoisson (metric : String) (c : Cand) : Except PyErr ℝ :=
  let k := if c.hasIntercept then c.k + 1 else c.k
  if metric = "log" then .ok c.llPoisson
  else if metric = "BIC" then .ok (-BIC (c.n * c.llPoisson) k c.n)
  else if metric = "AIC" then .ok (-AIC (c.n * c.llPoisson) k)
  else if metric = "AICc" then .ok (-AICc (c.n * c.llPoisson) k c.n)
  else .error .valueError

/-- The score used by each class. -/
noncomputable def scoreOf : Cls → String → Cand → Except PyErr ℝ
  | .lasso | .elasticNet => scoreLinear
  | .logistic => scoreGLM
  | .poisson => scorePoisson

/-! ### `UoI_Poisson.__init__` -/

/-- Arguments of `UoI_Poisson` (`poisson.py:462-469`) that are not just stored. -/
structure PoisArgs where
  nBootsSel : Nat
  nBootsEst : Nat
  score : String
  target : Option String
  solver : String
  warmStart : Bool
  fitIntercept : Bool
  standardize : Bool
  maxIter : Nat
  tol : ℚ

/-- Settings of a `Poisson` object (`poisson.py:54-64`). -/
structure PoisLM where
  fitIntercept : Bool
  standardize : Bool
  maxIter : Nat
  tol : ℚ
  warmStart : Bool
  solver : String
  deriving DecidableEq

/-- Attributes of a `UoI_Poisson` object used by `fit`. -/
structure PoisObj where
  nBootsSel : Nat
  nBootsEst : Nat
  score : String
  target : Nat
  fitIntercept : Bool
  standardize : Bool
  sel : PoisLM
  est : PoisLM

/-- `UoI_Poisson.__init__` (`poisson.py:470-504`).  `standardize`, `max_iter` and `tol` are not
    passed to `super().__init__`, whose defaults are `True`, `None`, `None` (`base.py:684-686`). -/
def poisCtor (a : PoisArgs) : Except PyErr PoisObj :=
  match ctorTarget .poisson a.score a.target with
  | .error e => .error e
  | .ok t => .ok {
      nBootsSel := a.nBootsSel
      nBootsEst := a.nBootsEst
      score := a.score
      target := t
      fitIntercept := a.fitIntercept
      standardize := true
      sel := ⟨a.fitIntercept, a.standardize, a.maxIter, a.tol, a.warmStart, a.solver⟩
      est := ⟨a.fitIntercept, false, a.maxIter, a.tol, false, a.solver⟩ }

/-- Whether `UoI_Poisson.fit` replaces `X` by its standardized version (`poisson.py:613-616`). -/
def PoisObj.standardizes (o : PoisObj) : Bool := o.standardize

end Verif.Scores
