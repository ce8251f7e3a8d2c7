import Verif.Model.HeldOut
import Verif.Model.Scaling
/-!
Model of the estimation stage of a UoI linear regressor with `estimation_score='r2'`
(`/repo/src/pyuoi/linear_model/base.py:361-443`) on given bootstraps and candidate supports, and of the
whole `fit` around it.  The least squares solver is a parameter.
-/
namespace Verif.Recovery
open Verif.Py Verif.HeldOut Verif.Scaling

variable {K : Type} {n p : Nat}

/-- Training and test rows of an estimation bootstrap (`base.py:342-345,369`). -/
structure Boot (n : Nat) where
  train : List (Fin n)
  test : List (Fin n)

/-- `coef_` and `intercept_` of a fitted model, the coefficients written into a row of zeros
    (`base.py:337,377-379`). -/
structure Fitted (K : Type) (p : Nat) where
  coef : Fin p → K
  intercept : K

/-- `LinearRegression(fit_intercept=...).fit(X_rep[:, support], y_rep)` (`lasso.py:245`,
    `base.py:377`) for design, response, training rows and support. -/
abbrev Ols (K : Type) (n p : Nat) :=
  (Fin n → Fin p → K) → (Fin n → K) → List (Fin n) → (Fin p → Bool) → Fitted K p

/-- The fitted candidate of one support (`base.py:374-403`): least squares, or for an empty support
    `LinearInterceptFitterNoFeatures`, which predicts the mean training response whether or not an
    intercept is to be fitted (`base.py:643-648,660-666`). -/
def candidate [Field K] (ols : Ols K n p) (X : Fin n → Fin p → K) (y : Fin n → K) (train : List (Fin n))
    (S : Fin p → Bool) : Fitted K p :=
  if ∃ j, S j = true then ols X y train S
  else ⟨fun _ => 0, (train.map y).sum / train.length⟩

/-- `fitter.predict(X[test][:, support])` (`base.py:608,620`). -/
def predictions [Field K] (X : Fin n → Fin p → K) (rows : List (Fin n)) (f : Fitted K p) : List K :=
  rows.map fun i => linPred f.coef f.intercept (X i)

/-- One estimation bootstrap (`base.py:364-403,434-438`): the coefficients of the candidate with the best
    score on the test rows. -/
def bestEstimate [LinearOrder K] [Field K] (ols : Ols K n p) (X : Fin n → Fin p → K) (y : Fin n → K)
    (supports : List (Fin p → Bool)) (b : Boot n) : Except PyErr (Fin p → K) :=
  let fs := supports.map (candidate ols X y b.train)
  match choose (b.test.map y) (fs.map (predictions X b.test)) with
  | .error e => .error e
  | .ok i => match fs[i]? with
    | none => .error .indexError
    | some f => .ok f.coef

/-- `self.coef_ = np.median(best_estimates, axis=0)` (`base.py:437-441`). -/
def estimate [LinearOrder K] [Field K] (ols : Ols K n p) (supports : List (Fin p → Bool))
    (boots : List (Boot n)) (X : Fin n → Fin p → K) (y : Fin n → K) : Except PyErr (Fin p → K) :=
  match mapE (bestEstimate ols X y supports) boots with
  | .error e => .error e
  | .ok rows => .ok fun j => median 0 (rows.map fun r => r j)

/-- `fit` (`base.py:200-218,361-445,537-571,650-657`) with the supports and bootstraps of its estimation
    stage: preprocessing, shortcut for a constant response, estimation, intercept, undoing the
    standardization.  Result: `coef_` and `intercept_`. -/
noncomputable def fit (ols : Ols ℝ n p) (std fi : Bool) (supports : List (Fin p → Bool))
    (boots : List (Boot n)) (X : Fin n → Fin p → ℝ) (y : Fin n → ℝ) :
    Except PyErr ((Fin p → ℝ) × ℝ) :=
  open Classical in
  let d := linPre std fi X y
  let coef := if ∀ i i', d.2 i = d.2 i' then .ok fun _ => 0 else estimate ols supports boots d.1 d.2
  match coef with
  | .error e => .error e
  | .ok c => .ok (linPost std fi (standardScaler fi X) (standardScaler fi (asColumn y)) c
      (linIntercept fi d.1 d.2 c))

end Verif.Recovery
