import Verif.Model.Scaling
import Verif.Py.Err
/-!
Model of the Poisson regression of `/repo/src/pyuoi/linear_model/poisson.py`: soft-thresholding, the
coordinate-descent solver, the loss for L-BFGS, and fitting and predicting as an object with
attributes.  Real arithmetic.
-/
namespace Verif.Poisson
open Verif.Py Verif.Scaling

variable {n p : Nat}

/-- `np.sign`. -/
noncomputable def sign (x : ℝ) : ℝ := if 0 < x then 1 else if x < 0 then -1 else 0

/-- `Poisson.soft_threshold` for one entry (`poisson.py:325-344`). -/
noncomputable def softThreshold (x t : ℝ) : ℝ :=
  let over : ℝ := if |x| > t then 1 else 0
  sign x * (|x| - t) * over

/-- `np.dot(X, coef)` for one row. -/
def dot (x coef : Fin p → ℝ) : ℝ := ∑ j, x j * coef j

/-- `Poisson.adjusted_response` (`poisson.py:346-376`): weights and working response of row `i`. -/
noncomputable def adjustedResponse (X : Fin n → Fin p → ℝ) (y : Fin n → ℝ) (coef : Fin p → ℝ)
    (b : ℝ) : (Fin n → ℝ) × (Fin n → ℝ) :=
  let eta := fun i => b + dot (X i) coef
  let w := fun i => Real.exp (eta i)
  (w, fun i => eta i + y i / w i - 1)

/-- The numbers a sweep uses besides the data. -/
structure Pen where
  /-- `self.alpha`, `self.l1_ratio`, `self.fit_intercept`. -/
  alpha : ℝ
  l1 : ℝ
  fi : Bool

/-- `num_update` (`poisson.py:296-301`): the current feature is masked out of the prediction. -/
noncomputable def numUpdate (X : Fin n → Fin p → ℝ) (w z : Fin n → ℝ) (b : ℝ) (coef : Fin p → ℝ)
    (j : Fin p) : ℝ :=
  (∑ i, w i * (X i j * (z i - (b + dot (X i) fun k => coef k * (if k = j then 0 else 1))))) / n

/-- `den_update` (`poisson.py:302`). -/
noncomputable def denUpdate (X : Fin n → Fin p → ℝ) (w : Fin n → ℝ) (j : Fin p) : ℝ :=
  (∑ i, w i * X i j ^ 2) / n

/-- One coordinate update (`poisson.py:290-306`).  Real division: a zero denominator, where NumPy
    gives NaN or infinity, gives zero here. -/
noncomputable def cdCoord (pen : Pen) (X : Fin n → Fin p → ℝ) (w z : Fin n → ℝ) (b : ℝ)
    (coef : Fin p → ℝ) (j : Fin p) : Fin p → ℝ :=
  Function.update coef j
    (softThreshold (numUpdate X w z b coef j) (pen.l1 * pen.alpha) /
      (denUpdate X w j + pen.alpha * (1 - pen.l1)))

/-- The intercept update at the start of a sweep (`poisson.py:281-287`). -/
noncomputable def cdIntercept (pen : Pen) (X : Fin n → Fin p → ℝ) (w z : Fin n → ℝ)
    (coef : Fin p → ℝ) : ℝ :=
  if pen.fi then (∑ i, w i * (z i - dot (X i) coef)) / ∑ i, w i else 0

/-- `Poisson._cd_sweep` (`poisson.py:252-308`) with a flat array of active indices. -/
noncomputable def cdSweep (pen : Pen) (X : Fin n → Fin p → ℝ) (w z : Fin n → ℝ)
    (active : List (Fin p)) (coef : Fin p → ℝ) : (Fin p → ℝ) × ℝ :=
  let b := cdIntercept pen X w z coef
  (active.foldl (cdCoord pen X w z b) coef, b)

/-- What `active_idx` holds: a flat array of indices, or the `(k, 1)` array that `np.argwhere`
    returns when it is not raveled (`poisson.py:225`). -/
inductive Active (p : Nat) where
  | flat (l : List (Fin p))
  | column (l : List (Fin p))

/-- A sweep with either form.  Iterating over a `(k, 1)` array gives arrays of length one; then
    `X[:, idx]` has shape `(n, 1)`, `num_update` has shape `(n,)`, and assigning it to `coef[idx]`
    of shape `(1,)` raises `ValueError` unless `n = 1` (when it is the flat update). -/
noncomputable def sweepActive (pen : Pen) (X : Fin n → Fin p → ℝ) (w z : Fin n → ℝ)
    (active : Active p) (coef : Fin p → ℝ) : Except PyErr ((Fin p → ℝ) × ℝ) :=
  match active with
  | .flat l => .ok (cdSweep pen X w z l coef)
  | .column l =>
    if l = [] ∨ n = 1 then .ok (cdSweep pen X w z l coef) else .error .valueError

/-- `np.argwhere(coef != 0).ravel()`. -/
noncomputable def nonzeros (coef : Fin p → ℝ) : List (Fin p) :=
  open Classical in (List.finRange p).filter fun j => decide (coef j ≠ 0)

/-- The iterations of `Poisson._cd` (`poisson.py:231-250`), `fuel` of them left.  Sample weights are
    ones.  The result also says whether the loop stopped by its convergence check; with no features
    `np.max` of nothing raises `ValueError`. -/
noncomputable def cdLoop (pen : Pen) (tol : ℝ) (X : Fin n → Fin p → ℝ) (y : Fin n → ℝ) :
    Nat → Active p → (Fin p → ℝ) → ℝ → Except PyErr ((Fin p → ℝ) × ℝ × Bool)
  | 0, _, coef, b => .ok (coef, b, false)
  | fuel + 1, active, coef, b =>
    let wz := adjustedResponse X y coef b
    match sweepActive pen X wz.1 wz.2 active coef with
    | .error e => .error e
    | .ok (coef', b') =>
      if p = 0 then .error .valueError
      else
        open Classical in
        if ∀ j, |coef j - coef' j| < tol then .ok (coef', b', true)
        else cdLoop pen tol X y fuel (.flat (nonzeros coef')) coef' b'

/-- `Poisson._cd` (`poisson.py:180-250`): `warm` is `warm_start`, `coef0` and `b0` the previous
    solution in the units of the (standardized) data, zeros if there is none. -/
noncomputable def cd (pen : Pen) (tol : ℝ) (maxIter : Nat) (warm : Bool) (coef0 : Fin p → ℝ) (b0 : ℝ)
    (X : Fin n → Fin p → ℝ) (y : Fin n → ℝ) : Except PyErr ((Fin p → ℝ) × ℝ × Bool) :=
  if warm then
    cdLoop pen tol X y maxIter (.column (nonzeros coef0)) coef0 (if pen.fi then b0 else 0)
  else cdLoop pen tol X y maxIter (.flat (List.finRange p)) (fun _ => 0) 0

/-! ### The loss for L-BFGS -/

/-- `_poisson_loss_and_grad` (`poisson.py:701-751`): `b` is `none` when the coefficient vector has no
    extra entry for the intercept, `sw` the sample weights. -/
noncomputable def lossGrad (X : Fin n → Fin p → ℝ) (y sw : Fin n → ℝ) (l2 : ℝ) (coef : Fin p → ℝ)
    (b : Option ℝ) : ℝ × (Fin p → ℝ) × Option ℝ :=
  let eta := fun i => b.getD 0 + dot (X i) coef
  let out := -(∑ i, sw i * (y i * eta i - Real.exp (eta i))) / n + 1 / 2 * l2 * ∑ j, coef j * coef j
  let yRes := fun i => sw i * (y i - Real.exp (eta i))
  let grad := fun j => -(∑ i, X i j * yRes i) / n + l2 * coef j
  (out, grad, b.map fun _ => -((∑ i, yRes i) / n))

/-! ### The estimator object -/

/-- The fitted attributes of a `Poisson` object. -/
structure PObj (p : Nat) where
  coef : Option (Fin p → ℝ)
  intercept : Option (WithBot ℝ)

/-- A newly constructed one. -/
def PObj.new : PObj p := ⟨none, none⟩

/-- `Poisson.fit` (`poisson.py:66-142`): a constant response sets both attributes whatever
    `fit_intercept` is (`poisson.py:84-90`); otherwise the solver (`solve`, its answer after
    `_post_fit`) gives the coefficients and, with `fit_intercept`, the intercept; without it
    `intercept_` is not set.  An unknown solver name would raise `ValueError`. -/
noncomputable def PObj.fit (o : PObj p) (fi : Bool) (y : Fin n → ℝ)
    (solve : (Fin p → ℝ) × ℝ) : PObj p :=
  open Classical in
  if ∀ i i', y i = y i' then
    ⟨some fun _ => 0, some (poisInterceptOnly y)⟩
  else if fi then ⟨some solve.1, some (solve.2 : WithBot ℝ)⟩
  else { o with coef := some solve.1 }

/-- `predict_mean` (`poisson.py:163-178`) for the rows of `X`. -/
noncomputable def PObj.predictMean {m : Nat} (o : PObj p) (X : Fin m → Fin p → ℝ) :
    Except PyErr (Fin m → ℝ) :=
  match o.coef, o.intercept with
  | some c, some b => .ok fun i => Scaling.predictMean c b (X i)
  | _, _ => .error .notFitted

/-- `predict` (`poisson.py:144-161`): the mode. -/
noncomputable def PObj.predict {m : Nat} (o : PObj p) (X : Fin m → Fin p → ℝ) :
    Except PyErr (Fin m → ℝ) :=
  match o.predictMean X with
  | .error e => .error e
  | .ok mu => .ok fun i => (⌊mu i⌋ : ℝ)

end Verif.Poisson
