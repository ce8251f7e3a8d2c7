import Verif.Model.Fit
import Mathlib.Data.List.Sort
import Mathlib.Data.List.Dedup
import Mathlib.Analysis.SpecialFunctions.Log.Basic
/-!
Model of what the classifiers of `/repo/src/pyuoi/linear_model/logistic.py` do with the labels they are
given: encoding, class weights, the score by log-likelihood (`base.py`), and predicted labels.  The
numerical part of a fit is a parameter.

`L` is the type of labels; `num` gives the label that NumPy compares equal to a Python integer (the
integer itself among integers, its decimal digits among strings).
-/
namespace Verif.Labels
open Verif.Py

variable {L K : Type} [LinearOrder L]

/-! ### Encoding -/

/-- `np.unique(y)`, also `LabelEncoder().fit(y).classes_` (`logistic.py:202-204`, `382`, `442-444`): the
    distinct labels in increasing order. -/
def uniq (y : List L) : List L := y.dedup.insertionSort (· ≤ ·)

/-- `LabelEncoder().fit_transform(y)` (`logistic.py:202-203`, `442-443`): positions in `np.unique(y)`. -/
def encode (y : List L) : List Nat := y.map fun l => (uniq y).idxOf l

/-- `output_dim` (`logistic.py:205-210`, `445-450`); the flag says whether `multi_class` is
    `'multinomial'`. -/
def outputDim (multinomial : Bool) (y : List L) : Nat :=
  if 2 < (uniq y).length then (uniq y).length else if multinomial then 2 else 1

/-! ### Prediction -/

/-- `predict` of scikit-learn's `LinearClassifierMixin` (inherited at `logistic.py:24`, `290`) at one row
    with decision values `d`: a position. -/
def predictIdx [LinearOrder K] [Zero K] : List K → Except PyErr Nat
  | [s] => .ok (if 0 < s then 1 else 0)
  | d => argmax d

/-- `self.classes_[indices]` (the same). -/
def predictLabel [LinearOrder K] [Zero K] (classes : List L) (d : List K) : Except PyErr L :=
  match predictIdx d with
  | .error e => .error e
  | .ok i => match classes[i]? with
    | some l => .ok l
    | none => .error .indexError

/-- A fitted classifier. -/
structure Clf (L K : Type) where
  classes : List L
  coef : List (List K)
  intercept : List K

/-- `X @ coef_.T + intercept_` at one row. -/
def Clf.decision [Zero K] [Add K] [Mul K] (c : Clf L K) (x : List K) : List K :=
  List.zipWith (fun w b => (List.zipWith (· * ·) x w).foldr (· + ·) 0 + b) c.coef c.intercept

/-- `predict` at one row. -/
def Clf.predict [LinearOrder K] [Zero K] [Add K] [Mul K] (c : Clf L K) (x : List K) : Except PyErr L :=
  predictLabel c.classes (c.decision x)

/-! ### The score by log-likelihood -/

/-- `LabelBinarizer().fit(labels).transform(y)` inside `sklearn.metrics.log_loss` for sorted distinct
    labels: a one at the position of the label; labels that are not known give zeros.  For two labels only
    the last column is kept, and the first is restored as its complement. -/
def binarize (num : Nat → L) (classes : List L) (c : Nat) : List Nat :=
  match classes with
  | [_, b] => if num c = b then [0, 1] else [1, 0]
  | _ => classes.map fun l => if l = num c then 1 else 0

/-- `log_loss(y, y_pred, labels=self.classes_)` (`base.py:789`) with `y` encoded: one row of probabilities
    per sample.  Left out: the clipping of probabilities at 1e-15. -/
noncomputable def logLoss (num : Nat → L) (classes : List L) (y : List Nat) (pr : List (List ℝ)) :
    Except PyErr ℝ :=
  if classes.length ≤ 1 then .error .valueError
  else if pr.length ≠ y.length then .error .valueError
  else if ∀ r ∈ pr, r.length = classes.length then
    .ok ((List.zipWith (fun c r =>
      -(List.zipWith (fun t q => ((t : Nat) : ℝ) * Real.log q) (binarize num classes c) r).sum) y pr).sum /
        y.length)
  else .error .valueError

/-- The score of a candidate for `estimation_score='log'` (`base.py:789-791`). -/
noncomputable def logScore (num : Nat → L) (classes : List L) (y : List Nat) (pr : List (List ℝ)) :
    Except PyErr ℝ :=
  match logLoss num classes y pr with
  | .error e => .error e
  | .ok v => .ok (-v)

/-! ### `UoI_L1Logistic` -/

/-- `UoI_L1Logistic.fit` (`base.py:179-445`, `logistic.py:200-211`) as far as labels are concerned.
    `train` is everything else: it sees the encoded labels, the number of rows of `coef_`, and the score by
    log-likelihood of encoded labels and probabilities (not used for `estimation_score='acc'`,
    `base.py:778-783`). -/
def uoiFit {S : Type} (multinomial : Bool) (score : List L → S)
    (train : List Nat → Nat → S → Except PyErr (List (List K) × List K)) (y : List L) :
    Except PyErr (Clf L K) :=
  match train (encode y) (outputDim multinomial y) (score (uniq y)) with
  | .error e => .error e
  | .ok (w, b) => .ok ⟨uniq y, w, b⟩

/-! ### `MaskedCoefLogisticRegression` -/

/-- `n_classes` (`logistic.py:384-399`), the number of rows of `coef_`, for `k` different labels. -/
def maskedRows (multinomial : Bool) (k : Nat) : Except PyErr Nat :=
  if k < 2 then .error .valueError
  else if k = 2 ∧ multinomial = false then .ok 1
  else .ok k

/-- `MaskedCoefLogisticRegression.fit` (`logistic.py:345-440`) as far as labels are concerned:
    `classes_` is computed a second time, from the encoded labels (382).  `solve` is the optimisation,
    from the encoded labels and the number of rows. -/
def maskedFit (multinomial : Bool) (solve : List Nat → Nat → List (List K) × List K) (y : List L) :
    Except PyErr (Clf Nat K) :=
  let y' := encode y
  match maskedRows multinomial (uniq y').length with
  | .error e => .error e
  | .ok rows => .ok ⟨uniq y', (solve y' rows).1, (solve y' rows).2⟩

/-! ### Class weights -/

/-- The values of `class_weight` (`logistic.py:309-316`). -/
inductive ClassWeight (L : Type) where
  | none
  | balanced
  | dict (d : List (L × ℚ))

/-- `sklearn.utils.compute_class_weight` (0.24) for a dictionary: ones, and for each key in turn the weight
    at the position of that class; a key that is not a class is a `ValueError`. -/
def dictWeights (classes : List L) : List (L × ℚ) → Except PyErr (List ℚ)
  | [] => .ok (classes.map fun _ => 1)
  | (c, w) :: d =>
    match dictWeights classes d with
    | .error e => .error e
    | .ok ws => if c ∈ classes then .ok (ws.set (classes.idxOf c) w) else .error .valueError

/-- The same for `'balanced'`: `len(y) / (len(classes) * np.bincount(y))`. -/
def balancedWeights (classes : List L) (y : List L) : List ℚ :=
  classes.map fun c => (y.length : ℚ) / (classes.length * y.count c)

/-- The weights of the samples (`logistic.py:544-585`), given those of the caller, for encoded labels `y`;
    `num` turns an encoded label into a key of the dictionary. -/
def sampleWeights (num : Nat → L) (multi : Bool) (cw : ClassWeight L) (sw : List ℚ) (y : List Nat) :
    Except PyErr (List ℚ) :=
  let classes := uniq y
  let byClass := fun (ws : List ℚ) =>
    List.zipWith (fun s c => s * ws.getD (classes.idxOf c) 1) sw y
  if sw.length ≠ y.length then .error .valueError
  else match cw with
    | .none => .ok sw
    | .dict d =>
      match dictWeights (classes.map num) d with
      | .error e => .error e
      | .ok ws => .ok (byClass ws)
    | .balanced =>
      if multi then .ok (byClass (balancedWeights classes y))
      else
        let yBin : List Int := y.map fun c => if c = 1 then 1 else -1
        .ok (List.zipWith (fun s c => s * (balancedWeights [-1, 1] yBin).getD (if c = 1 then 1 else 0) 1)
          sw y)

/-- `MaskedCoefLogisticRegression.fit(X, y, sample_weight)` up to the weights handed to the objective. -/
def fitWeights (num : Nat → L) (multi : Bool) (cw : ClassWeight L) (sw : List ℚ) (y : List L) :
    Except PyErr (List ℚ) := sampleWeights num multi cw sw (encode y)

end Verif.Labels
