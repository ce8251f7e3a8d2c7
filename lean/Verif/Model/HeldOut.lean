import Mathlib.Algebra.Order.Field.Rat
import Mathlib.Algebra.Order.Floor.Semiring
import Mathlib.Data.Rat.Floor
import Verif.Py.Ext
import Verif.Py.Reduce
/-!
Model of how a UoI linear regressor with the default `estimation_score='r2'` chooses a candidate in each
estimation bootstrap: the sizes of the train/test split, the score on the held-out rows, and `np.argmax`
with its treatment of NaN (`/repo/src/pyuoi/linear_model/base.py:342-345,384-389,434,606-624`).
-/
namespace Verif.HeldOut
open Verif.Py

variable {K : Type}

/-- The sizes of `train_test_split(np.arange(n), test_size=t)` (scikit-learn 0.24, called at
    `base.py:342-345` with `t = 1 - estimation_frac`): a fraction has to lie between zero and one, the test
    size is rounded up, and an empty training set is a `ValueError`.  Result: training and test rows. -/
def splitSizes (t : ℚ) (n : Nat) : Except PyErr (Nat × Nat) :=
  if t ≤ 0 ∨ 1 ≤ t then .error .valueError
  else if n ≤ ⌈t * n⌉₊ then .error .valueError
  else .ok (n - ⌈t * n⌉₊, ⌈t * n⌉₊)

/-- The sum of the squared differences of responses and predictions, the numerator in `r2_score`
    (`base.py:624`). -/
def residual [Field K] (y p : List K) : K := (List.zipWith (fun a b => (a - b) ^ 2) y p).sum

/-- The denominator in `r2_score` (`base.py:624`): the sum of the squared deviations from the mean. -/
def spread [Field K] (y : List K) : K := (y.map fun a => (a - y.sum / y.length) ^ 2).sum

/-- `sklearn.metrics.r2_score(y, y_pred)` (0.24) for one output (`base.py:624`): NaN, with a warning, for
    fewer than two rows; one for exact predictions, otherwise zero for a constant response. -/
def r2Score [Field K] [DecidableEq K] (y p : List K) : Ext K :=
  if y.length < 2 then .nan
  else if residual y p = 0 then .fin 1
  else if spread y = 0 then .fin 0
  else .fin (1 - residual y p / spread y)

/-- `_score_predictions(metric='r2', ...)` (`base.py:606-624`) for the response and the predictions on the
    rows of the estimation target. -/
def score [Field K] [DecidableEq K] (y p : List K) : Except PyErr (Ext K) :=
  if y.length ≠ p.length then .error .valueError else .ok (r2Score y p)

/-- `b < x` on floats (IEEE: false when one of them is NaN), as used by `np.argmax` (`base.py:434`). -/
def ltExt [LT K] [DecidableRel (α := K) (· < ·)] : Ext K → Ext K → Bool
  | .fin a, .fin b => decide (a < b)
  | .ninf, .fin _ => true
  | .ninf, .pinf => true
  | .fin _, .pinf => true
  | _, _ => false

/-- `np.argmax` of floats (`base.py:434`) after the first entry: `bi` and `b` are position and value of the
    best entry so far, `i` the position of the head.  NaN counts as the maximum, and the search ends there. -/
def argmaxExtFrom [DecidableEq K] [LT K] [DecidableRel (α := K) (· < ·)] :
    Nat → Ext K → Nat → List (Ext K) → Nat
  | bi, _, _, [] => bi
  | bi, b, i, x :: xs =>
    if b = .nan then bi
    else if x = .nan ∨ ltExt b x = true then argmaxExtFrom i x (i + 1) xs
    else argmaxExtFrom bi b (i + 1) xs

/-- `np.argmax(row)` (`base.py:434`): `ValueError` for an empty row. -/
def argmaxExt [DecidableEq K] [LT K] [DecidableRel (α := K) (· < ·)] : List (Ext K) → Except PyErr Nat
  | [] => .error .valueError
  | x :: xs => .ok (argmaxExtFrom 0 x 1 xs)

/-- One bootstrap (`base.py:384-389,434`): the scores of the candidates with predictions `ps`, and the
    position of the chosen one. -/
def choose [LinearOrder K] [Field K] (y : List K) (ps : List (List K)) : Except PyErr Nat :=
  match mapE (score y) ps with
  | .error e => .error e
  | .ok scores => argmaxExt scores

/-- `rp_max_idx_` (`base.py:434`): for each bootstrap the response on its held-out rows and the predictions
    of all candidates. -/
def chosen [LinearOrder K] [Field K] (boots : List (List K × List (List K))) : Except PyErr (List Nat) :=
  mapE (fun b => choose b.1 b.2) boots

end Verif.HeldOut
