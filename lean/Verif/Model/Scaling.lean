import Mathlib.Algebra.Order.WithTop.Untop0
import Mathlib.Analysis.SpecialFunctions.Log.Basic
import Mathlib.Analysis.SpecialFunctions.Pow.Real
import Verif.Model.Utils
/-!
Model of standardization, of the intercept fits and of undoing the standardization
(`_pre_fit`, `_fit_intercept`, `_post_fit`) in `/repo/src/pyuoi/linear_model/base.py` and
`poisson.py`.
-/
namespace Verif.Scaling
open Verif.Py Verif.Utils

variable {K : Type} [Field K] {n p : Nat}

/-- The fitted attributes of a `StandardScaler`: `mean_`, `scale_`, and whether it centres. -/
structure Scaler (K : Type) (p : Nat) where
  mean : Fin p → K
  scale : Fin p → K
  withMean : Bool

/-- `scaler.transform` of one row. -/
def Scaler.apply (s : Scaler K p) (x : Fin p → K) : Fin p → K :=
  fun j => (if s.withMean then x j - s.mean j else x j) / s.scale j

/-- Linear predictor `x @ coef_.T + intercept_` for one row and one output. -/
def linPred (coef : Fin p → K) (b : K) (x : Fin p → K) : K := (∑ j, coef j * x j) + b

/-! ### Linear regressors -/

/-- `AbstractUoILinearRegressor._fit_intercept` (`base.py:650-657`). -/
def linIntercept (fi : Bool) (X : Fin n → Fin p → K) (y : Fin n → K) (coef : Fin p → K) : K :=
  if fi then (∑ i, y i) / n - ∑ j, ((∑ i, X i j) / n) * coef j else 0

/-- `AbstractUoILinearRegressor._post_fit` (`base.py:156-160,559-571`) on `(coef_, intercept_)`;
    `sy` is the scaler of `y` seen as one column.  The final `squeeze` is not modelled (the result
    is a vector). -/
def linPost (std fi : Bool) (sX : Scaler K p) (sy : Scaler K 1) (coef : Fin p → K) (b : K) :
    (Fin p → K) × K :=
  if std then
    let coef1 := fun j => coef j / sX.scale j
    let coef2 := fun j => coef1 j * sy.scale 0
    let b1 := if fi then b * sy.scale 0 + (sy.mean 0 - ∑ j, sX.mean j * coef2 j) else b
    (coef2, b1)
  else (coef, b)

/-! ### Logistic regression -/

/-- `AbstractUoIGeneralizedLinearRegressor._post_fit` (`base.py:156-160,717-722`) for one class. -/
def glmPost (std fi : Bool) (sX : Scaler K p) (coef : Fin p → K) (b : K) : (Fin p → K) × K :=
  let coef1 := if std then fun j => coef j / sX.scale j else coef
  let b1 := if std && fi then b + ∑ j, (sX.mean j * sX.scale j) * coef1 j else b
  (coef1, b1)

/-! ### Poisson regression; the intercept may be `-inf`, written `⊥` -/

/-- `Poisson._post_fit` and `UoI_Poisson._post_fit` (`poisson.py:317-323,624-632`). -/
def poisPost (std fi : Bool) (sX : Scaler K p) (coef : Fin p → K) (b : WithBot K) :
    (Fin p → K) × WithBot K :=
  if std then
    let b1 := if fi then b + ((-∑ j, (sX.mean j * coef j) / sX.scale j : K) : WithBot K) else b
    (fun j => coef j / sX.scale j, b1)
  else (coef, b)

/-- `intercept_ + np.dot(x, coef_)` (`poisson.py:159,177`). -/
def poisPred (coef : Fin p → K) (b : WithBot K) (x : Fin p → K) : WithBot K :=
  b + ((∑ j, x j * coef j : K) : WithBot K)

/-- `np.exp` with `exp(-inf) = 0`. -/
noncomputable def expB : WithBot ℝ → ℝ
  | ⊥ => 0
  | (x : ℝ) => Real.exp x

/-- `predict_mean` for one row (`poisson.py:163-178`). -/
noncomputable def predictMean (coef : Fin p → ℝ) (b : WithBot ℝ) (x : Fin p → ℝ) : ℝ :=
  expB (poisPred coef b x)

/-- `UoI_Poisson._fit_intercept` (`poisson.py:634-649`). -/
noncomputable def poisIntercept (fi : Bool) (X : Fin n → Fin p → ℝ) (y : Fin n → ℝ)
    (coef : Fin p → ℝ) : WithBot ℝ :=
  open Classical in
  if fi then
    let mu := fun i => Real.exp (∑ j, X i j * coef j)
    if ∃ i, y i ≠ 0 then ((Real.log (mean y / mean mu) : ℝ) : WithBot ℝ) else ⊥
  else ((0 : ℝ) : WithBot ℝ)

/-- `PoissonInterceptFitterNoFeatures(y).intercept_` (`poisson.py:659-664`). -/
noncomputable def poisInterceptOnly (y : Fin n → ℝ) : WithBot ℝ :=
  open Classical in
  if ∃ i, y i ≠ 0 then ((Real.log (mean y) : ℝ) : WithBot ℝ) else ⊥

/-! ### `StandardScaler` and the whole fit of a linear regressor -/

/-- `StandardScaler(with_mean=…).fit(X)` (scikit-learn): column means and population standard
    deviations, a zero deviation replaced by one. -/
noncomputable def standardScaler (withMean : Bool) (X : Fin n → Fin p → ℝ) : Scaler ℝ p where
  mean j := mean fun i => X i j
  scale j :=
    let s := Real.sqrt (mean fun i => (X i j - mean fun i => X i j) ^ 2)
    if s = 0 then 1 else s
  withMean := withMean

/-- `y[:, np.newaxis]` (`base.py:540`). -/
def asColumn (y : Fin n → K) : Fin n → Fin 1 → K := fun i _ => y i

/-- `_pre_fit` of a linear regressor (`base.py:141-154,537-557`) for a 1-d response: the data given to
    the algorithm. -/
noncomputable def linPre (std fi : Bool) (X : Fin n → Fin p → ℝ) (y : Fin n → ℝ) :
    (Fin n → Fin p → ℝ) × (Fin n → ℝ) :=
  if std then
    (fun i => (standardScaler fi X).apply (X i),
      fun i => (standardScaler fi (asColumn y)).apply (asColumn y i) 0)
  else (X, y)

/-- `fit` of a linear regressor as seen from outside (`base.py:200-445`): preprocessing, the
    constant-response shortcut or the algorithm (`algo`: anything that computes coefficients from
    the preprocessed data), intercept, undoing the standardization.  At least two rows are assumed
    (`np.squeeze` would turn a single response into a 0-d array). -/
noncomputable def linFit (algo : (Fin n → Fin p → ℝ) → (Fin n → ℝ) → Fin p → ℝ) (std fi : Bool)
    (X : Fin n → Fin p → ℝ) (y : Fin n → ℝ) : (Fin p → ℝ) × ℝ :=
  open Classical in
  let d := linPre std fi X y
  let coef := if ∀ i i', d.2 i = d.2 i' then fun _ => 0 else algo d.1 d.2
  linPost std fi (standardScaler fi X) (standardScaler fi (asColumn y)) coef
    (linIntercept fi d.1 d.2 coef)

/-- The same for `UoI_Poisson` (`poisson.py:613-649`, `base.py:214-218`): the response is not
    preprocessed and the scaler always centres; `standardize` is always on (see C28). -/
noncomputable def poisFit (algo : (Fin n → Fin p → ℝ) → (Fin n → ℝ) → Fin p → ℝ) (fi : Bool)
    (X : Fin n → Fin p → ℝ) (y : Fin n → ℝ) : (Fin p → ℝ) × WithBot ℝ :=
  open Classical in
  let sX := standardScaler true X
  let Z := fun i => sX.apply (X i)
  let coef := if ∀ i i', y i = y i' then fun _ => 0 else algo Z y
  poisPost true fi sX coef (poisIntercept fi Z y coef)

/-! ### The constant-response shortcut of the classifier -/

/-- `sklearn.metrics.log_loss(y, py)` without `labels`: `ValueError` when `y` holds a single
    label (scikit-learn); otherwise some number. -/
def logLossCheck (y : Fin n → Nat) (val : ℝ) : Except PyErr ℝ :=
  if ∀ i i' : Fin n, y i = y i' then .error .valueError else .ok val

/-- `fit_intercept_fixed_coef(X, coef_, y, 1)` (`logistic.py:214-226`): the optimiser evaluates the
    objective at least once, at intercept 0, and an exception there propagates.  `loss` stands for the
    value of the objective, `opt` for the optimiser's answer. -/
def interceptFixedCoefBinary (y : Fin n → Nat) (loss opt : ℝ) : Except PyErr ℝ :=
  match logLossCheck y loss with
  | .error e => .error e
  | .ok _ => .ok opt

/-- `UoI_L1Logistic.fit` on a constant response with `multi_class='auto'` (`base.py:214-218`,
    `logistic.py:188-198`): `LabelEncoder` maps it to a single class, `output_dim` is 1. -/
def logisticConstFit (fi : Bool) (y : Fin n → Nat) (loss opt : ℝ) : Except PyErr ℝ :=
  if fi then interceptFixedCoefBinary y loss opt else .ok 0

end Verif.Scaling
