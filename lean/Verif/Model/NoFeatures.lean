import Verif.Model.Scaling
import Verif.Model.Scores
import Verif.Model.Logistic
/-!
Model of the intercept-only models that stand for a candidate without features, and of their scores
(`/repo/src/pyuoi/linear_model/base.py:385-397`, `644-666`, `poisson.py:651-698`, `logistic.py:181-186`).
`y` is the response on the training rows of a bootstrap, `z` on the rows chosen by the estimation target.
-/
namespace Verif.NoFeatures
open Verif.Py Verif.Utils Verif.Scores Verif.Scaling

variable {n m : Nat}

/-- `LinearInterceptFitterNoFeatures(y).intercept_` (`base.py:660-662`). -/
noncomputable def linOnly (y : Fin n → ℝ) : ℝ := Utils.mean y

/-- `LinearInterceptFitterNoFeatures(y).predict(X)` for `m` rows (`base.py:664-666`). -/
noncomputable def linOnlyPredict (y : Fin n → ℝ) (m : Nat) : Fin m → ℝ := fun _ => linOnly y

/-- `sklearn.metrics.r2_score` (0.24) for one output: a constant response gives one for exact predictions
    and zero otherwise.  (Called at `base.py:624`.) -/
noncomputable def r2 (z p : Fin m → ℝ) : ℝ :=
  let res := ∑ i, (z i - p i) ^ 2
  let tot := ∑ i, (z i - Utils.mean z) ^ 2
  if tot = 0 then (if res = 0 then 1 else 0) else 1 - res / tot

/-- `_score_predictions` of a linear regressor (`base.py:621-641`) for predictions `p` of a candidate with `k`
    features; the log-likelihood can be infinite, and so can the information criteria. -/
noncomputable def scoreLin (metric : String) (z p : Fin m → ℝ) (k : Nat) : Except PyErr (Ext ℝ) :=
  if metric = "r2" then .ok (.fin (r2 z p))
  else if metric = "BIC" ∨ metric = "AIC" ∨ metric = "AICc" then
    match llNormal z p with
    | .fin ll => (scoreLinear metric ⟨0, 0, 0, ll, 0, k, false, m⟩).map .fin
    | e => .ok e
  else .error .valueError

/-- The score of a candidate without features, whatever `fit_intercept` is (`base.py:385-397`). -/
noncomputable def scoreLinEmpty (metric : String) (y : Fin n → ℝ) (z : Fin m → ℝ) :
    Except PyErr (Ext ℝ) := scoreLin metric z (linOnlyPredict y m) 0

/-- `PoissonInterceptFitterNoFeatures(y).predict_mean(X)` (`poisson.py:684-698`): one number, whatever the
    number of rows. -/
noncomputable def poisOnlyMean (y : Fin n → ℝ) : ℝ := expB (poisInterceptOnly y)

/-- `PoissonInterceptFitterNoFeatures(y).predict(X)` (`poisson.py:666-682`): one number. -/
noncomputable def poisOnlyMode (y : Fin n → ℝ) : Int := ⌊poisOnlyMean y⌋

/-- The log-likelihood of a candidate without features (`poisson.py:589-591`, `utils.py:57-64`); the one
    number is broadcast to all rows. -/
noncomputable def llPoisEmpty (y : Fin n → ℝ) (z : Fin m → ℝ) : Ext ℝ := llPoisson z fun _ => poisOnlyMean y

/-- `accuracy_score(y, y_pred)` (`base.py:783`): the share of rows with the right position. -/
noncomputable def accuracy {k : Nat} (z : Fin m → Fin k) (c : Nat) : ℝ :=
  ((Finset.univ.filter fun i => (z i).val = c).card : ℝ) / m

end Verif.NoFeatures
