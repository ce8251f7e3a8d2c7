import Mathlib.Analysis.SpecialFunctions.Pow.Real
import Mathlib.Data.Finset.Lattice.Fold
import Verif.Model.Utils
import Verif.Py.Err
import Verif.Py.Reduce
/-!
Model of the regularization grids: `get_reg_params` of the Lasso, elastic-net and Poisson estimators
(`/repo/src/pyuoi/linear_model/lasso.py:245-254`, `elasticnet.py:131-182`, `poisson.py:506-548`)
with the NumPy and scikit-learn functions they call.  Real arithmetic; data sets have at least one
feature (`Fin (p + 1)`), since `np.max` of nothing raises.
-/
namespace Verif.Grid
open Verif.Py Verif.Utils

variable {n p : Nat}

/-- `np.linspace(start, stop, num)` (NumPy): evenly spaced, both ends included; a single point is
    `start`. -/
noncomputable def linspace (start stop : ℝ) (num : Nat) : List ℝ :=
  (List.range num).map fun i : Nat => start + (i : ℝ) * ((stop - start) / ((num - 1 : Nat) : ℝ))

/-- `np.logspace(start, stop, num)` (NumPy). -/
noncomputable def logspace (start stop : ℝ) (num : Nat) : List ℝ :=
  (linspace start stop num).map fun e => (10 : ℝ) ^ e

/-- `np.log10`. -/
noncomputable def log10 (x : ℝ) : ℝ := Real.log x / Real.log 10

/-- `np.max(np.abs(v))`. -/
noncomputable def maxAbs (v : Fin (p + 1) → ℝ) : ℝ :=
  Finset.univ.sup' Finset.univ_nonempty fun j => |v j|

/-- `v - v.mean()` if `fi`, else `v`. -/
noncomputable def centre (fi : Bool) (v : Fin n → ℝ) : Fin n → ℝ :=
  fun i => if fi then v i - mean v else v i

/-- `X.T @ y` after `_preprocess_data` (scikit-learn): both centred when an intercept is fitted. -/
noncomputable def crossProd (fi : Bool) (X : Fin n → Fin (p + 1) → ℝ) (y : Fin n → ℝ) :
    Fin (p + 1) → ℝ :=
  fun j => ∑ i, centre fi (fun i => X i j) i * centre fi y i

/-- `np.finfo(float).resolution`. -/
noncomputable def resolution : ℝ := (1 : ℝ) / 10 ^ 15

/-- `_alpha_grid(X, y, l1_ratio=…, fit_intercept=…, eps=…, n_alphas=…)` (scikit-learn
    `linear_model/_coordinate_descent.py`), called at `lasso.py:246-251` and `elasticnet.py:168-173`;
    dense data. -/
noncomputable def alphaGrid (X : Fin n → Fin (p + 1) → ℝ) (y : Fin n → ℝ) (l1 : ℝ) (fi : Bool)
    (eps : ℝ) (num : Nat) : Except PyErr (List ℝ) :=
  open Classical in
  if l1 = 0 then .error .valueError
  else
    let alphaMax := maxAbs (crossProd fi X y) / (n * l1)
    if alphaMax ≤ resolution then .ok (List.replicate num resolution)
    else .ok (logspace (log10 (alphaMax * eps)) (log10 alphaMax) num).reverse

/-- One entry of `reg_params`: `dict(alpha=lamb, l1_ratio=alpha)`. -/
structure RegParam where
  lamb : ℝ
  l1 : ℝ

/-- `UoI_Lasso.get_reg_params` (`lasso.py:245-254`); the entries only hold `alpha`, the Lasso has
    `l1_ratio` 1. -/
noncomputable def lassoGrid (X : Fin n → Fin (p + 1) → ℝ) (y : Fin n → ℝ) (fi : Bool) (eps : ℝ)
    (num : Nat) : Except PyErr (List RegParam) :=
  match alphaGrid X y 1 fi eps num with
  | .error e => .error e
  | .ok g => .ok (g.map fun a => ⟨a, 1⟩)

/-- The rows of `self.lambdas`, one per alpha (`elasticnet.py:163-173`); assigning to a row needs
    exactly `n_lambdas` values, which `_alpha_grid` returns. -/
noncomputable def enLambdas (X : Fin n → Fin (p + 1) → ℝ) (y : Fin n → ℝ) (alphas : List ℝ)
    (fi : Bool) (eps : ℝ) (num : Nat) : Except PyErr (List (List ℝ)) :=
  mapE (fun a => alphaGrid X y a fi eps num) alphas

/-- The double loop that places the parameters into a list (`elasticnet.py:175-180`,
    `poisson.py:541-546`). -/
def expand : List ℝ → List (List ℝ) → List RegParam
  | a :: as, row :: rows => row.map (fun l => ⟨l, a⟩) ++ expand as rows
  | _, _ => []

/-- `UoI_ElasticNet.get_reg_params` (`elasticnet.py:131-182`): the parameters and the value of
    `self.lambdas` afterwards, given its value before. -/
noncomputable def enGrid (X : Fin n → Fin (p + 1) → ℝ) (y : Fin n → ℝ) (alphas : List ℝ)
    (fi : Bool) (eps : ℝ) (num : Nat) (cache : Option (List (List ℝ))) :
    Except PyErr (List RegParam × Option (List (List ℝ))) :=
  match cache with
  | some l => .ok (expand alphas l, some l)
  | none =>
    match enLambdas X y alphas fi eps num with
    | .error e => .error e
    | .ok l => .ok (expand alphas l, some l)

/-- `lambda_max` (`poisson.py:533-535`): no check on `alpha`. -/
noncomputable def poisLambdaMax (X : Fin n → Fin (p + 1) → ℝ) (y : Fin n → ℝ) (alpha : ℝ) : ℝ :=
  maxAbs (fun j => ∑ i, X i j * (y i - mean y)) / (n * alpha)

/-- `UoI_Poisson.get_reg_params` (`poisson.py:506-548`). -/
noncomputable def poisGrid (X : Fin n → Fin (p + 1) → ℝ) (y : Fin n → ℝ) (alphas : List ℝ)
    (eps : ℝ) (num : Nat) (cache : Option (List (List ℝ))) :
    List RegParam × Option (List (List ℝ)) :=
  let l := cache.getD (alphas.map fun a =>
    let m := poisLambdaMax X y a
    logspace (log10 m) (log10 (eps * m)) num)
  (expand alphas l, some l)

/-- `np.logspace(logC, logC - np.log10(eps), n_C)` from the largest absolute gradient
    (`/repo/src/pyuoi/linear_model/logistic.py:172-174`). -/
noncomputable def logisticCs (alphaMax eps : ℝ) (num : Nat) : List ℝ :=
  logspace (-log10 alphaMax) (-log10 alphaMax - log10 eps) num

end Verif.Grid
