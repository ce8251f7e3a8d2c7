import Verif.Model.Labels
import Verif.Model.Logistic
import Mathlib.Analysis.SpecialFunctions.Exp
/-!
`predict_proba` of the classifiers (`/repo/src/pyuoi/linear_model/logistic.py:24,290`, inherited from scikit-learn 0.24's
`LogisticRegression` and `LinearClassifierMixin`; used for scores at `base.py:785-788`).
-/
namespace Verif.Proba
open Verif.Py Verif.Labels
open Verif.Logistic (expit)

/-- `np.max` of a row that is not empty (`sklearn.utils.extmath.softmax`, see `softmaxRow`). -/
noncomputable def rowMax : List ℝ → ℝ
  | [] => 0
  | x :: xs => xs.foldl max x

/-- `sklearn.utils.extmath.softmax` of one row (called by the `predict_proba` inherited at `logistic.py:24,290`): the maximum is
    subtracted first. -/
noncomputable def softmaxRow (d : List ℝ) : List ℝ :=
  let e := d.map fun v => Real.exp (v - rowMax d)
  e.map fun v => v / e.sum

/-- `predict_proba` at one row with decision values `d` (inherited at `logistic.py:24,290`).  The first branch is
    scikit-learn's `ovr`, taken for `multi_class='auto'` with at most two classes; `solver` is never 'liblinear'
    (`logistic.py:138`). -/
noncomputable def probaRow (multinomial : Bool) (nClasses : Nat) (d : List ℝ) : List ℝ :=
  if multinomial = false ∧ nClasses ≤ 2 then
    match d with
    | [s] => [1 - expit s, expit s]
    | d => let e := d.map expit; e.map fun v => v / e.sum
  else
    match d with
    | [s] => softmaxRow [-s, s]
    | d => softmaxRow d

/-- `predict_proba` of a fitted classifier at one row (the same). -/
noncomputable def proba {L : Type} (multinomial : Bool) (c : Clf L ℝ) (x : List ℝ) : List ℝ :=
  probaRow multinomial c.classes.length (c.decision x)

/-- The candidate without features (`logistic.py:247-286`) as a classifier with coefficients zero and its intercept, for the two
    classes of encoded labels and `p` features. -/
noncomputable def emptyBinary {n : Nat} (p : Nat) (y : Fin n → Fin 2) : Clf Nat ℝ :=
  ⟨[0, 1], [List.replicate p 0], [Logistic.binIntercept y]⟩

/-- The same for `k` classes (`logistic.py:263-272`). -/
noncomputable def emptyMulti {n k : Nat} [NeZero k] (p : Nat) (y : Fin n → Fin k) : Clf Nat ℝ :=
  ⟨List.range k, List.replicate k (List.replicate p 0), List.ofFn (Logistic.multiIntercept y)⟩

end Verif.Proba
