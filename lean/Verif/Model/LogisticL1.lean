import Mathlib.Analysis.Real.Sqrt
import Verif.Model.Logistic
import Verif.Model.LbfgsPy
/-!
The L1-penalised fits of `/repo/src/pyuoi/linear_model/logistic.py`, with the optimiser of
`/repo/src/pyuoi/lbfgs`: the objective, the progress callable and the arguments handed to
`fmin_lbfgs`, and what becomes of its result.  Real arithmetic.  Simplification: with a mask the binary
objective multiplies the coefficients by the mask inside the optimiser's own array
(`logistic.py:818-819`); here the array keeps its entries.
-/
namespace Verif.Logistic
open Verif.Py Verif.Lbfgs

/-- The data of one fit: labels as signs for a binary problem, one-hot for a multinomial one, and the
    weights of the samples (`logistic.py:553-590`). -/
structure L1Data (n : Nat) where
  X : Fin n → Nat → ℝ
  y : Fin n → ℝ
  Y : Fin n → Nat → ℝ
  sw : Fin n → ℝ

variable {n : Nat}

/-- `_logistic_loss_and_grad(x, X, target, 0., coef_mask, sample_weight)` on a flat vector
    (`logistic.py:666-670`, `789-839`): the coefficients, and then the intercept if there is one. -/
noncomputable def binFlat (a : PathArgs) (d : L1Data n) (x : Nat → ℝ) : ℝ × (Nat → ℝ) :=
  let g := binLossGrad (fun i (j : Fin a.p) => d.X i j) d.y 0 (a.mask.map fun m (j : Fin a.p) => m 0 j) d.sw
    (fun j => x j) (if a.fi then some (x a.p) else none)
  (g.1, fun i => if h : i < a.p then g.2.1 ⟨i, h⟩ else g.2.2.getD 0)

/-- `_multinomial_loss_grad(x, X, target, 0., coef_mask, sample_weight)[0:2]` on a flat vector with one
    row per class (`logistic.py:643-644`, `842-889`). -/
noncomputable def multiFlat (a : PathArgs) (d : L1Data n) (x : Nat → ℝ) : ℝ × (Nat → ℝ) :=
  let w := reshape a.cols x
  let g := multiLossGrad (fun i (j : Fin a.p) => d.X i j) (fun i (c : Fin a.k) => d.Y i c) 0
    (a.mask.map fun m (c : Fin a.k) (j : Fin a.p) => m c j) d.sw (fun c j => w c j)
    (if a.fi then some fun c => w c a.p else none)
  (g.1, ravel a.cols fun c j =>
    if hc : c < a.k then
      if h : j < a.p then g.2.1 ⟨c, hc⟩ ⟨j, h⟩ else (g.2.2.getD fun _ => 0) ⟨c, hc⟩
    else 0)

/-- The objective handed to `fmin_lbfgs` (`logistic.py:643-651`, `666-670`). -/
noncomputable def l1Func (a : PathArgs) (d : L1Data n) : (Nat → ℝ) → ℝ × (Nat → ℝ) :=
  if a.multi then multiL1Func a.k a.cols (multiFlat a d) else binFlat a d

/-- `w0.size`. -/
def PathArgs.size (a : PathArgs) : Nat := a.rows * a.cols

/-- `coef_size` (`logistic.py:571`, `587`). -/
def PathArgs.coefSize (a : PathArgs) : Nat := a.rows * a.p

/-- An array as a function of all naturals. -/
def ofVec {N : Nat} (x : Fin N → ℝ) : Nat → ℝ := fun i => if h : i < N then x ⟨i, h⟩ else 0

/-- `func` and `zero_coef` as the callables of `fmin_lbfgs` (`logistic.py:643-651`, `666-670`,
    `697-709`). -/
noncomputable def l1Callables (a : PathArgs) (d : L1Data n) : Callables a.size Nat ℝ where
  sqrt := Real.sqrt
  f x := (.ok (l1Func a d (ofVec x)).1, fun i => (l1Func a d (ofVec x)).2 i)
  progress seen x _ _ _ _ _ _ _ :=
    let r := zeroCoef a.multi a.k seen (List.ofFn x)
    (.ok (if r.2 then some (-2048) else none), r.1)

/-- The arguments of the call (`logistic.py:711-718`); the others have their defaults
    (`lbfgs/__init__.py:11-15`). -/
noncomputable def l1Args (a : PathArgs) (C tol : ℝ) (maxIter : Nat) : Args ℝ where
  par :=
    { m := 10, epsilon := tol, past := 0, delta := 0, maxIterations := maxIter, linesearch := 0,
      maxLinesearch := 20, minStep := 1 / 10 ^ 20, maxStep := 10 ^ 20, ftol := 1 / 10 ^ 4,
      wolfe := 9 / 10, gtol := 9 / 10, xtol := 1 / 10 ^ 30, c := 1 / C, start := 0,
      stop := a.coefSize }
  lineSearch := "default"

/-- What becomes of the result (`logistic.py:710-720`): the all-zero exception is caught, others are
    not. -/
def l1Outcome {N : Nat} : Res N ℝ → Except PyErr L1Result
  | .returned x _ => .ok (.point (ofVec x))
  | .raised .allZeroLbfgs _ => .ok .allZero
  | .raised e _ => .error e

/-- `w0` as it is handed to the optimiser (`logistic.py:641`, `605-611`). -/
def l1Start (a : PathArgs) : Nat → ℝ :=
  if a.multi then ravel a.k (transpose (startPoint a)) else ravel a.cols (startPoint a)

/-- The L1 optimisation of one fit (`logistic.py:697-720`): its result, and the warning if there is
    one. -/
def L1Fit (a : PathArgs) (d : L1Data n) (C tol : ℝ) (maxIter : Nat) (r : Except PyErr L1Result)
    (warning : Option String) : Prop :=
  ∃ res tr, Fmin (l1Callables a d) (l1Args a C tol maxIter) (fun i => l1Start a i) 0 res tr ∧
    l1Outcome res = r ∧ warning = (match res with | .returned _ w => w | .raised _ _ => none)

end Verif.Logistic
