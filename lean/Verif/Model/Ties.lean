import Verif.Model.HeldOut
import Verif.Model.Intersection
/-!
The choice of a candidate support in one estimation bootstrap of a binary `UoI_L1Logistic` by accuracy, its default score
(`/repo/src/pyuoi/linear_model/base.py:312-322,384-389,434,774-783`).
-/
namespace Verif.Ties
open Verif.Py Verif.HeldOut Verif.Intersection

/-- `accuracy_score(y, y_pred)` (`base.py:783`): the mean of `y == y_pred`, NaN without samples. -/
def accuracy (y p : List Nat) : Except PyErr (Ext ℚ) :=
  if y.length ≠ p.length then .error .valueError
  else if y = [] then .ok .nan
  else .ok (.fin (((List.zipWith (fun a b => if a = b then 1 else 0) y p).sum : Nat) / (y.length : ℚ)))

/-- The scores of the candidates and the position of the largest (`base.py:384-389,434`). -/
def chooseAcc (y : List Nat) (ps : List (List Nat)) : Except PyErr Nat :=
  match mapE (accuracy y) ps with
  | .error e => .error e
  | .ok s => argmaxExt s

/-- One bootstrap: candidates from the selection coefficients (`base.py:312-322`), then the choice.  `predict` gives the labels
    predicted for the held-out samples by the classifier that was fitted with a support. -/
def chooseSupport {K : Type} [Zero K] [DecidableEq K] (A : Arr3 K) (ts : List Int) (y : List Nat) (predict : List Bool → List Nat) :
    Except PyErr (List Bool) :=
  match intersection A (some ts) with
  | .ok (.d2 rows) =>
    match chooseAcc y (rows.map predict) with
    | .error e => .error e
    | .ok i =>
      match rows[i]? with
      | some S => .ok S
      | none => .error .indexError
  | .ok _ => .error .indexError
  | .error e => .error e

/-- The same for any score (`base.py:384-389,434`) that is a function of the support. -/
def chooseScored {K M : Type} [Zero K] [DecidableEq K] [LinearOrder M] (A : Arr3 K) (ts : List Int) (score : List Bool → Ext M) :
    Except PyErr (List Bool) :=
  match intersection A (some ts) with
  | .ok (.d2 rows) =>
    match argmaxExt (rows.map score) with
    | .error e => .error e
    | .ok i =>
      match rows[i]? with
      | some S => .ok S
      | none => .error .indexError
  | .ok _ => .error .indexError
  | .error e => .error e

end Verif.Ties
