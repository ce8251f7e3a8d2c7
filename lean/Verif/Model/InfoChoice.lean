import Verif.Model.Recovery
import Verif.Model.Utils
/-!
Model of the estimation stage of a UoI linear regressor with `estimation_score` one of `'BIC'`, `'AIC'`,
`'AICc'` and `estimation_target='train'`, the default for these scores
(`/repo/src/pyuoi/linear_model/base.py:361-443,606-641`).
-/
namespace Verif.InfoChoice
open Verif.Py Verif.HeldOut Verif.Scaling Verif.Recovery Verif.Utils

variable {n p m : Nat}

/-- The information criterion by name (`base.py:632-639`). -/
noncomputable def criterion (metric : String) (ll : ℝ) (k m : Nat) : Except PyErr ℝ :=
  if metric = "BIC" then .ok (BIC ll k m)
  else if metric = "AIC" then .ok (AIC ll k)
  else if metric = "AICc" then .ok (AICc ll k m)
  else .error .valueError

/-- `-score` (`base.py:632-641`) for a log-likelihood that need not be finite: each criterion is a finite
    number minus twice the log-likelihood. -/
noncomputable def negated (metric : String) (ll : Ext ℝ) (k m : Nat) : Except PyErr (Ext ℝ) :=
  match ll with
  | .fin l => match criterion metric l k m with
    | .error e => .error e
    | .ok c => .ok (.fin (-c))
  | x => match criterion metric 0 k m with
    | .error e => .error e
    | .ok _ => .ok x

/-- `_score_predictions` (`base.py:606-641`) for an information criterion: `m` rows of the estimation
    target with responses and predictions, and `k` features in the support.  Without rows the mean of the
    squared errors is NaN. -/
noncomputable def icScore (metric : String) (y q : Fin m → ℝ) (k : Nat) : Except PyErr (Ext ℝ) :=
  negated metric (if m = 0 then .nan else llNormal y q) k m

/-- The position of the best score (`base.py:384-389,434`) among candidates given by predictions and
    number of features. -/
noncomputable def chooseIC (metric : String) (y : Fin m → ℝ) (cands : List ((Fin m → ℝ) × Nat)) :
    Except PyErr Nat :=
  match mapE (fun c => icScore metric y c.1 c.2) cands with
  | .error e => .error e
  | .ok scores => argmaxExt scores

/-- `np.count_nonzero(support)` (`base.py:630`). -/
def numFeatures (S : Fin p → Bool) : Nat := (Finset.univ.filter fun j => S j = true).card

/-- One estimation bootstrap (`base.py:364-403,434-438`), scored on its training rows. -/
noncomputable def bestEstimateIC (metric : String) (ols : Ols ℝ n p) (X : Fin n → Fin p → ℝ) (y : Fin n → ℝ)
    (supports : List (Fin p → Bool)) (train : List (Fin n)) : Except PyErr (Fin p → ℝ) :=
  match chooseIC metric (fun r => y (train.get r)) (supports.map fun S =>
      (fun r => linPred (candidate ols X y train S).coef (candidate ols X y train S).intercept
        (X (train.get r)), numFeatures S)) with
  | .error e => .error e
  | .ok i => match supports[i]? with
    | none => .error .indexError
    | some S => .ok (candidate ols X y train S).coef

/-- `self.coef_ = np.median(best_estimates, axis=0)` (`base.py:437-441`). -/
noncomputable def estimateIC (metric : String) (ols : Ols ℝ n p) (supports : List (Fin p → Bool))
    (trains : List (List (Fin n))) (X : Fin n → Fin p → ℝ) (y : Fin n → ℝ) : Except PyErr (Fin p → ℝ) :=
  match mapE (bestEstimateIC metric ols X y supports) trains with
  | .error e => .error e
  | .ok rows => .ok fun j => median 0 (rows.map fun r => r j)

/-- `fit` (`base.py:200-218,361-445,537-571,650-657`) as in `Recovery.fit`, with an information criterion as
    the score; `trains` are the training rows of the estimation bootstraps. -/
noncomputable def fitIC (metric : String) (ols : Ols ℝ n p) (std fi : Bool) (supports : List (Fin p → Bool))
    (trains : List (List (Fin n))) (X : Fin n → Fin p → ℝ) (y : Fin n → ℝ) :
    Except PyErr ((Fin p → ℝ) × ℝ) :=
  open Classical in
  let d := linPre std fi X y
  let coef := if ∀ i i', d.2 i = d.2 i' then .ok fun _ => 0
    else estimateIC metric ols supports trains d.1 d.2
  match coef with
  | .error e => .error e
  | .ok c => .ok (linPost std fi (standardScaler fi X) (standardScaler fi (asColumn y)) c
      (linIntercept fi d.1 d.2 c))

end Verif.InfoChoice
