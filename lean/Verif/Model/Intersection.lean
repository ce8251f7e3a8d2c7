import Verif.Py.Err
import Verif.Py.Unique
/-!
Model of `intersection` (`/repo/src/pyuoi/linear_model/utils.py:83-145`) and of the
multi-class `intersect` (`/repo/src/pyuoi/linear_model/base.py:724-735`).
-/
namespace Verif.Intersection
open Verif.Py

/-- A 3-d coefficient array of shape `(n0, n1, n2)` = (bootstraps, regularization parameters,
    coefficients), the argument `coefs` of `linear_model/utils.py:83`.
    `get` is only read inside the shape. -/
structure Arr3 (K : Type) where
  n0 : Nat
  n1 : Nat
  n2 : Nat
  get : Nat → Nat → Nat → K

/-- A boolean array with 0, 1 or 2 dimensions: what is left after `np.squeeze`. -/
inductive BArr where
  | d0 (b : Bool)
  | d1 (xs : List Bool)
  | d2 (rows : List (List Bool))
  deriving DecidableEq, Repr

variable {K : Type} [Zero K] [DecidableEq K]

/-- `np.count_nonzero(coefs, axis=0)[l, j]` (`linear_model/utils.py:134`). -/
def countNonzero (A : Arr3 K) (l j : Nat) : Nat :=
  ((List.range A.n0).filter fun b => A.get b l j ≠ 0).length

/-- One row of `np.count_nonzero(coefs, axis=0) >= threshold`
    (`linear_model/utils.py:133-134`). -/
def supportRow (A : Arr3 K) (t : Int) (l : Nat) : List Bool :=
  (List.range A.n2).map fun j => decide (t ≤ (countNonzero A l j : Int))

/-- The array `supports` reshaped to `(n_thresholds * n_reg_params, n_features)`
    (`linear_model/utils.py:130-141`), before squeezing. -/
def allRows (A : Arr3 K) (ts : List Int) : List (List Bool) :=
  ts.flatMap fun t => (List.range A.n1).map (supportRow A t)

/-- `np.squeeze` of a 2-d array with rows of length `p` (`linear_model/utils.py:138`): every
    axis of length one disappears. -/
def squeeze2 (rows : List (List Bool)) (p : Nat) : BArr :=
  match rows with
  | [r] => if p = 1 then .d0 (r.headD false) else .d1 r
  | rows => if p = 1 then .d1 (rows.map fun r => r.headD false) else .d2 rows

/-- `np.unique(supports, axis=0)` (`linear_model/utils.py:143`); on a 0-d array NumPy raises
    `AxisError` (a `ValueError`). -/
def unique0 : BArr → Except PyErr BArr
  | .d0 _ => .error .valueError
  | .d1 xs => .ok (.d1 (uniqueBools xs))
  | .d2 rows => .ok (.d2 (uniqueRows rows))

/-- `intersection(coefs, selection_thresholds)` (`linear_model/utils.py:83-145`). -/
def intersection (A : Arr3 K) (thresholds : Option (List Int)) : Except PyErr BArr :=
  let ts := match thresholds with
    | none => [(A.n0 : Int)]
    | some ts => ts
  unique0 (squeeze2 (allRows A ts) A.n2)

/-- The flat contents (C order) and the last dimension of an array, as used by
    `supports.shape[-1]` and `reshape` in `base.py:731-732`.  A 0-d array has no last
    dimension (`IndexError`), but `intersection` never returns one. -/
def flat : BArr → List Bool × Nat
  | .d0 b => ([b], 0)
  | .d1 xs => (xs, xs.length)
  | .d2 rows => (rows.flatten, (rows.headD []).length)

/-- `np.sum(x.reshape((-1, D, p)), axis=-2).astype(bool)` on flat data (`base.py:732-733`):
    feature `j` of block `i` is set iff some class `c` has it set. -/
def orClasses (data : List Bool) (D p : Nat) : List (List Bool) :=
  (List.range (data.length / (D * p))).map fun i =>
    (List.range p).map fun j =>
      (List.range D).any fun c => data.getD ((i * D + c) * p + j) false

/-- `AbstractUoIGeneralizedLinearRegressor.intersect` (`base.py:724-735`).  `reshape` with an
    unknown `-1` axis raises `ValueError` when the remaining size is zero or does not divide
    the number of elements.  Simplification: an empty 2-d array keeps its last dimension in
    NumPy; here an empty list of rows has last dimension 0 (this needs an empty threshold
    list, see C02). -/
def glmIntersect (A : Arr3 K) (thresholds : Option (List Int)) (outputDim : Nat)
    (sharedSupport : Bool) : Except PyErr BArr := do
  let s ← intersection A thresholds
  if outputDim > 1 && sharedSupport then
    let (data, last) := flat s
    let p := last / outputDim
    if outputDim * p = 0 || data.length % (outputDim * p) ≠ 0 then
      .error .valueError
    else
      return .d2 (uniqueRows (orClasses data outputDim p))
  else
    return s

end Verif.Intersection
