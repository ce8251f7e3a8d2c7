import Verif.Model.Utils
import Verif.Model.Grid
import Verif.Py.Reduce
/-!
Model of the logistic regression of `/repo/src/pyuoi/linear_model/logistic.py`: the losses and their
gradients, the intercept-only classifier, the grid of penalties, the fit with masked coefficients as
a driver of an optimiser, and the detection of the all-zero solution.  Real arithmetic.
-/
namespace Verif.Logistic
open Verif.Py Verif.Utils

variable {n p k : Nat}

/-! ### Losses -/

/-- `scipy.special.expit`. -/
noncomputable def expit (x : ℝ) : ℝ := 1 / (1 + Real.exp (-x))

/-- `sklearn.utils.extmath.log_logistic`: the logarithm of the logistic function. -/
noncomputable def logLogistic (x : ℝ) : ℝ := -Real.log (1 + Real.exp (-x))

/-- `w[:n_features] *= mask` if there is a mask (`logistic.py:818-819`, `831-832`). -/
def applyMask (mask : Option (Fin p → ℝ)) (w : Fin p → ℝ) : Fin p → ℝ :=
  match mask with
  | none => w
  | some m => fun j => w j * m j

/-- `_logistic_loss_and_grad` (`logistic.py:789-839`) with `_intercept_dot` (892-920): `b` is `none`
    when the vector has no entry for the intercept.  Loss, gradient of the coefficients, gradient of
    the intercept. -/
noncomputable def binLossGrad (X : Fin n → Fin p → ℝ) (y : Fin n → ℝ) (alpha : ℝ)
    (mask : Option (Fin p → ℝ)) (sw : Fin n → ℝ) (w : Fin p → ℝ) (b : Option ℝ) :
    ℝ × (Fin p → ℝ) × Option ℝ :=
  let w := applyMask mask w
  let yz := fun i => y i * (∑ j, X i j * w j + b.getD 0)
  let out := -(∑ i, sw i * logLogistic (yz i)) / n + 1 / 2 * alpha * ∑ j, w j * w j
  let z0 := fun i => sw i * (expit (yz i) - 1) * y i
  let grad := applyMask mask fun j => (∑ i, X i j * z0 i) / n + alpha * w j
  (out, grad, b.map fun _ => (∑ i, z0 i) / n)

/-- The same mask for every class row (`logistic.py:872-875`, `884-885`). -/
def applyMaskM (mask : Option (Fin k → Fin p → ℝ)) (w : Fin k → Fin p → ℝ) : Fin k → Fin p → ℝ :=
  match mask with
  | none => w
  | some m => fun c j => w c j * m c j

/-- `p -= logsumexp(p, axis=1)` (`logistic.py:781-782`): log-probabilities of one sample. -/
noncomputable def logProb (eta : Fin k → ℝ) (c : Fin k) : ℝ :=
  eta c - Real.log (∑ c', Real.exp (eta c'))

/-- `_multinomial_loss_grad` with `_multinomial_loss` (`logistic.py:744-786`, `842-889`), the weights
    reshaped to one row per class and the intercept column split off. -/
noncomputable def multiLossGrad (X : Fin n → Fin p → ℝ) (Y : Fin n → Fin k → ℝ) (alpha : ℝ)
    (mask : Option (Fin k → Fin p → ℝ)) (sw : Fin n → ℝ) (w : Fin k → Fin p → ℝ)
    (b : Option (Fin k → ℝ)) : ℝ × (Fin k → Fin p → ℝ) × Option (Fin k → ℝ) :=
  let w := applyMaskM mask w
  let eta := fun i c => ∑ j, X i j * w c j + (b.getD fun _ => 0) c
  let lp := fun i => logProb (eta i)
  let loss := -(∑ i, ∑ c, sw i * Y i c * lp i c) / n + 1 / 2 * alpha * ∑ c, ∑ j, w c j ^ 2
  let diff := fun i c => sw i * (Real.exp (lp i c) - Y i c)
  let grad := applyMaskM mask fun c j => (∑ i, diff i c * X i j) / n + alpha * w c j
  (loss, grad, b.map fun _ c => (∑ i, diff i c) / n)

/-! ### Flat parameter vectors

NumPy `reshape` and `ravel` in C order, for matrices with `q` columns. -/

/-- `x.reshape(-1, q)`. -/
def reshape (q : Nat) (x : Nat → ℝ) : Nat → Nat → ℝ := fun r c => x (r * q + c)

/-- `M.ravel()` of a matrix with `q` columns. -/
def ravel (q : Nat) (M : Nat → Nat → ℝ) : Nat → ℝ := fun i => M (i / q) (i % q)

/-- `M.T`. -/
def transpose (M : Nat → Nat → ℝ) : Nat → Nat → ℝ := fun r c => M c r

/-- The objective handed to OWL-QN for a multinomial problem (`logistic.py:643-651`): the flat vector
    has one group of `k` entries per feature; it is turned into one row of `q` entries per class for
    the loss, and the gradient is turned back.  `inner` is `_multinomial_loss_grad` on flat vectors
    with one row per class. -/
def multiL1Func (k q : Nat) (inner : (Nat → ℝ) → ℝ × (Nat → ℝ)) (x : Nat → ℝ) : ℝ × (Nat → ℝ) :=
  let x := ravel q (transpose (reshape k x))
  let (loss, grad) := inner x
  (loss, ravel k (transpose (reshape q grad)))

/-- `x0[mask] = x`: entry `l` of `x` goes to position `idx[l]`; other positions are zero. -/
def scatter (idx : List Nat) (x : Nat → ℝ) : Nat → ℝ :=
  fun i => if i ∈ idx then x (idx.idxOf i) else 0

/-- `v[mask]`. -/
def gather (idx : List Nat) (v : Nat → ℝ) : Nat → ℝ := fun l => v (idx.getD l 0)

/-- The objective handed to SciPy for a masked fit without L1 penalty (`logistic.py:630-640`,
    `655-664`). -/
def maskedL2Func (idx : List Nat) (inner : (Nat → ℝ) → ℝ × (Nat → ℝ)) (x : Nat → ℝ) :
    ℝ × (Nat → ℝ) :=
  let (f, df) := inner (scatter idx x)
  (f, gather idx df)

/-! ### Fitting -/

/-- Settings of one call of `_logistic_regression_path` with a single `C`. -/
structure PathArgs where
  /-- `multi_class == 'multinomial'`; otherwise one binary problem. -/
  multi : Bool
  /-- `penalty == 'l1'`. -/
  l1 : Bool
  fi : Bool
  /-- `classes.size`. -/
  k : Nat
  /-- `n_features`. -/
  p : Nat
  /-- The mask, one row per class (one row for a binary problem). -/
  mask : Option (Nat → Nat → ℝ)
  /-- The starting coefficients: number of columns and entries. -/
  warm : Option (Nat × (Nat → Nat → ℝ))
  /-- Intercepts of the intercept-only model, used as start of a multinomial fit. -/
  init : Nat → ℝ

/-- Rows and columns of the parameter matrix. -/
def PathArgs.rows (a : PathArgs) : Nat := if a.multi then a.k else 1
def PathArgs.cols (a : PathArgs) : Nat := a.p + (if a.fi then 1 else 0)

/-- What the L1 optimiser may do: return a vector, or stop at the all-zero solution. -/
inductive L1Result where
  | point (x : Nat → ℝ)
  | allZero

/-- The optimisers: SciPy's L-BFGS-B and `fmin_lbfgs`, as functions of the starting vector (the
    objective is fixed by the data). -/
structure Optimisers where
  l2 : (Nat → ℝ) → (Nat → ℝ)
  l2masked : List Nat → (Nat → ℝ) → (Nat → ℝ)
  l1 : (Nat → ℝ) → L1Result

/-- `w0` before optimisation (`logistic.py:566-611`).  For a multinomial problem the last column is
    set to the intercepts even when no intercept is fitted (592). -/
def startPoint (a : PathArgs) : Nat → Nat → ℝ :=
  let w0 : Nat → Nat → ℝ := fun c j =>
    if a.multi ∧ j + 1 = a.cols then a.init c else 0
  let w0 := match a.warm with
    | none => w0
    | some (width, coef) => fun c j => if j < width then coef c j else w0 c j
  match a.mask with
  | none => w0
  | some m => fun c j => if j < a.p then w0 c j * m c j else w0 c j

/-- The mask with a column of ones for the intercept, as flat indices of its nonzero entries
    (`logistic.py:682-692`). -/
noncomputable def maskIdx (a : PathArgs) (m : Nat → Nat → ℝ) : List Nat :=
  open Classical in
  (List.range (a.rows * a.cols)).filter fun i =>
    decide (ravel a.cols (fun c j => if j < a.p then m c j else 1) i ≠ 0)

/-- `coef_mask.sum()`. -/
def maskSum (a : PathArgs) (m : Nat → Nat → ℝ) : ℝ :=
  ∑ c ∈ Finset.range a.rows, ∑ j ∈ Finset.range a.p, m c j

/-- `_logistic_regression_path` for one `C` (`logistic.py:461-741`) with the reshaping of
    `MaskedCoefLogisticRegression.fit` (430-432): the matrix of coefficients, the intercept in the
    last column if there is one. -/
noncomputable def path (a : PathArgs) (opt : Optimisers) : Nat → Nat → ℝ :=
  let w0 := startPoint a
  let flat := if a.multi ∧ a.l1 then ravel a.k (transpose w0) else ravel a.cols w0
  open Classical in
  let w : Nat → ℝ :=
    match a.mask with
    | none => if a.l1 then (match opt.l1 flat with
        | .point x => x
        | .allZero => fun i => flat i * 0) else opt.l2 flat
    | some m =>
      if maskSum a m ≠ 0 then
        if a.l1 then (match opt.l1 flat with
          | .point x => x
          | .allZero => fun i => flat i * 0)
        else
          let idx := maskIdx a m
          scatter idx (opt.l2masked idx (gather idx flat))
      else flat
  if a.multi ∧ a.l1 then transpose (reshape a.k w) else reshape a.cols w

/-- `coef_` and `intercept_` after `MaskedCoefLogisticRegression.fit` (`logistic.py:434-436`). -/
noncomputable def fitCoef (a : PathArgs) (opt : Optimisers) : Nat → Nat → ℝ :=
  fun c j => if j < a.p then path a opt c j else 0

noncomputable def fitIntercept (a : PathArgs) (opt : Optimisers) : Nat → ℝ :=
  fun c => if a.fi then path a opt c a.p else 0

/-! ### All-zero detection -/

/-- The part of the flat vector that `zero_coef` looks at (`logistic.py:698-702`): everything but the
    last entry, or but the last group of `k`. -/
def zeroCoefPart (multi : Bool) (k : Nat) (x : List ℝ) : List ℝ :=
  if multi then x.take (x.length - k) else x.dropLast

/-- One call of `zero_coef` (`logistic.py:697-709`): the new counter and whether it returns the code
    of the all-zero solution. -/
noncomputable def zeroCoef (multi : Bool) (k : Nat) (seen : Nat) (x : List ℝ) : Nat × Bool :=
  open Classical in
  let seen' := if ∀ v ∈ zeroCoefPart multi k x, v = 0 then seen + 1 else 0
  (seen', decide (seen' > 1))

/-- The progress reports of a run, until the first one that stops it: its number. -/
noncomputable def zeroRun (multi : Bool) (k : Nat) : Nat → List (List ℝ) → Option Nat
  | _, [] => none
  | seen, x :: xs =>
    let (seen', stop) := zeroCoef multi k seen x
    if stop then some 0 else (zeroRun multi k seen' xs).map (· + 1)

/-! ### Intercept-only classifier -/

/-- `eps = 1e-10` (`logistic.py:258`). -/
noncomputable def epsI : ℝ := 1 / 10 ^ 10

/-- The binary intercept (`logistic.py:259-262`); labels are zeros and ones. -/
noncomputable def binIntercept (y : Fin n → Fin 2) : ℝ :=
  let q := min (max (mean fun i => ((y i : ℕ) : ℝ)) epsI) (1 - epsI)
  Real.log (q / (1 - q))

/-- Class frequencies (`logistic.py:264-265`). -/
noncomputable def freq (y : Fin n → Fin k) (c : Fin k) : ℝ :=
  mean fun i => if y i = c then (1 : ℝ) else 0

/-- The adjusted frequencies (`logistic.py:266-270`). -/
noncomputable def adjFreq (y : Fin n → Fin k) (c : Fin k) : ℝ :=
  open Classical in
  let included := (Finset.univ.filter fun c => freq y c ≠ 0).card
  if included < k then
    let newMass := epsI * ((k : ℝ) - included)
    let q := freq y c * (1 - newMass)
    if q = 0 then epsI else q
  else freq y c

/-- The multinomial intercepts (`logistic.py:271-272`). -/
noncomputable def multiIntercept [NeZero k] (y : Fin n → Fin k) (c : Fin k) : ℝ :=
  Real.log (adjFreq y c) -
    Finset.univ.sup' Finset.univ_nonempty fun c => Real.log (adjFreq y c)

/-- `predict` for one row (`logistic.py:274-279`). -/
noncomputable def binPredict (y : Fin n → Fin 2) : Nat := if binIntercept y ≥ 0 then 1 else 0

noncomputable def multiPredict [NeZero k] (y : Fin n → Fin k) : Except PyErr Nat :=
  argmax (List.ofFn (multiIntercept y))

/-- `predict_proba` for one row (`logistic.py:281-286`); for a binary problem the probability of
    class one. -/
noncomputable def binProba (y : Fin n → Fin 2) : ℝ := sigmoid (binIntercept y)

noncomputable def multiProba [NeZero k] (y : Fin n → Fin k) : Fin k → ℝ := softmax (multiIntercept y)

/-! ### The grid of penalties -/

/-- `abs(v).max()` of a flat array. -/
noncomputable def absMax : List ℝ → Except PyErr ℝ
  | [] => .error .valueError
  | x :: xs => .ok (xs.foldl (fun m v => max m |v|) |x|)

/-- The gradient at the intercept-only model as `get_reg_params` computes it for a binary problem
    (`logistic.py:156-162`): the labels are handed on as zeros and ones, not as signs. -/
noncomputable def binGrad0 (fi : Bool) (X : Fin n → Fin p → ℝ) (y : Fin n → Fin 2) : List ℝ :=
  let b := if fi then some (binIntercept y) else none
  let g := binLossGrad X (fun i => ((y i : ℕ) : ℝ)) 0 none (fun _ => 1) (fun _ => 0) b
  List.ofFn g.2.1 ++ g.2.2.toList

/-- One-hot labels (`logistic.py:165-166`). -/
def oneHot (y : Fin n → Fin k) : Fin n → Fin k → ℝ := fun i c => if y i = c then 1 else 0

/-- The same for a multinomial problem (`logistic.py:163-172`), raveled row by row. -/
noncomputable def multiGrad0 [NeZero k] (fi : Bool) (X : Fin n → Fin p → ℝ) (y : Fin n → Fin k) :
    List ℝ :=
  let b := if fi then some (multiIntercept y) else none
  let g := multiLossGrad X (oneHot y) 0 none (fun _ => 1) (fun _ _ => 0) b
  (List.finRange k).flatMap fun c => List.ofFn (g.2.1 c) ++ (g.2.2.map fun v => v c).toList

/-- `Cs` from the gradient (`logistic.py:173-175`): the last entry is dropped. -/
noncomputable def csFromGrad (grad : List ℝ) (eps : ℝ) (num : Nat) : Except PyErr (List ℝ) :=
  match absMax grad.dropLast with
  | .error e => .error e
  | .ok m => .ok (Grid.logisticCs m eps num)

end Verif.Logistic
