import Mathlib.Analysis.SpecialFunctions.Log.Basic
import Mathlib.Data.Nat.Digits.Lemmas
import Verif.Py.Err
import Verif.Py.Ext
/-!
Model of `/repo/src/pyuoi/utils.py`: softmax, sigmoid, log-likelihoods, information criteria and
the logger set-up.  Floats are ideal real numbers.
-/
namespace Verif.Utils
open Verif.Py

/-- `softmax(y)` along one axis of length `n ≥ 1` (`utils.py:6-17`): the maximum is subtracted
    first (line 15). -/
noncomputable def softmaxShift {n : Nat} [NeZero n] (y : Fin n → ℝ) (i : Fin n) : ℝ :=
  y i - Finset.univ.sup' Finset.univ_nonempty y

/-- See `softmaxShift`; lines 16-17. -/
noncomputable def softmax {n : Nat} [NeZero n] (y : Fin n → ℝ) (i : Fin n) : ℝ :=
  Real.exp (softmaxShift y i) / ∑ j, Real.exp (softmaxShift y j)

/-- `np.logaddexp(a, b)`, as documented by NumPy: `log(exp(a) + exp(b))`. -/
noncomputable def logaddexp (a b : ℝ) : ℝ := Real.log (Real.exp a + Real.exp b)

/-- `sigmoid(x)` (`utils.py:20-28`). -/
noncomputable def sigmoid (x : ℝ) : ℝ := Real.exp (-logaddexp 0 (-x))

/-- `np.mean` of a vector. -/
noncomputable def mean {n : Nat} (x : Fin n → ℝ) : ℝ := (∑ i, x i) / n

/-- `log_likelihood_glm('normal', y_true, y_pred)` (`utils.py:51-56`); for a perfect prediction
    NumPy's `log(0)` gives `ll = +inf`. -/
noncomputable def llNormal {n : Nat} (y p : Fin n → ℝ) : Ext ℝ :=
  let rss := mean fun i => (y i - p i) ^ 2
  if rss = 0 then .pinf else .fin (-(n : ℝ) / 2 * (1 + Real.log rss))

/-- One term `y_true * log(y_pred) - y_pred` (`utils.py:64`) with IEEE rules: `log` of a negative
    number is NaN, `log(0)` is `-inf`, and `0 * -inf` is NaN. -/
noncomputable def poisTerm (y p : ℝ) : Ext ℝ :=
  if p < 0 then .nan
  else if p = 0 then (if 0 < y then .ninf else if y = 0 then .nan else .pinf)
  else .fin (y * Real.log p - p)

/-- IEEE addition with special values. -/
noncomputable def addExt : Ext ℝ → Ext ℝ → Ext ℝ
  | .nan, _ => .nan
  | _, .nan => .nan
  | .pinf, .ninf => .nan
  | .ninf, .pinf => .nan
  | .pinf, _ => .pinf
  | _, .pinf => .pinf
  | .ninf, _ => .ninf
  | _, .ninf => .ninf
  | .fin a, .fin b => .fin (a + b)

/-- Division by a positive number. -/
noncomputable def divExt (n : Nat) : Ext ℝ → Ext ℝ
  | .fin a => .fin (a / n)
  | x => x

/-- `np.mean` of floats with special values. -/
noncomputable def meanExt (xs : List (Ext ℝ)) : Ext ℝ := divExt xs.length (xs.foldr addExt (.fin 0))

/-- `log_likelihood_glm('poisson', y_true, y_pred)` (`utils.py:57-64`). -/
noncomputable def llPoisson {n : Nat} (y p : Fin n → ℝ) : Ext ℝ :=
  open Classical in
  if ∀ i, p i = 0 then
    if ∃ i, y i ≠ 0 then .ninf else .fin 0
  else meanExt (List.ofFn fun i => poisTerm (y i) (p i))

/-- `log_likelihood_glm(model, y_true, y_pred)` (`utils.py:31-67`). -/
noncomputable def llGlm {n : Nat} (model : String) (y p : Fin n → ℝ) : Except PyErr (Ext ℝ) :=
  if model = "normal" then .ok (llNormal y p)
  else if model = "poisson" then .ok (llPoisson y p)
  else .error .valueError

/-- `BIC(ll, n_features, n_samples)` (`utils.py:70-88`). -/
noncomputable def BIC (ll : ℝ) (k n : Nat) : ℝ := k * Real.log n - 2 * ll

/-- `AIC(ll, n_features)` (`utils.py:91-110`). -/
noncomputable def AIC (ll : ℝ) (k : Nat) : ℝ := 2 * k - 2 * ll

/-- `AICc(ll, n_features, n_samples)` (`utils.py:113-137`). -/
noncomputable def AICc (ll : ℝ) (k n : Nat) : ℝ :=
  if n > k + 1 then AIC ll k + 2 * ((k : ℝ) ^ 2 + k) / ((n : ℝ) - k - 1) else AIC ll k

/-! ### Loggers -/

/-- `str(r)`: the decimal digits, most significant first. -/
def str (r : Nat) : List Char :=
  if r = 0 then ['0'] else ((Nat.digits 10 r).map fun d => Char.ofNat (48 + d)).reverse

/-- `s.rjust(w)`: padded on the left with blanks to width `w`. -/
def rjust (s : List Char) (w : Nat) : List Char := List.replicate (w - s.length) ' ' ++ s

/-- The logger name used on process `rank` of `size` (`utils.py:143-145`).  `int(np.log10(s))` is
    taken as the exact integer logarithm. -/
def loggerName (name : List Char) (rank size : Nat) : List Char :=
  if size > 1 then name ++ (' ' :: rjust (str rank) (Nat.log 10 size + 1)) else name

/-- The process-wide registry of `logging`: how many stream handlers each logger has. -/
abbrev Registry := List Char → Nat

/-- `check_logger(None, name, comm)` (`utils.py:140-154`): `getLogger` returns the registered logger
    and a handler is added to it.  Serial when `size = 1`. -/
def checkLogger (reg : Registry) (name : List Char) (rank size : Nat) : List Char × Registry :=
  let nm := loggerName name rank size
  (nm, fun m => if m = nm then reg m + 1 else reg m)

/-- Constructing `k` estimators with the default logger, one after the other (`base.py:122`). -/
def construct (name : List Char) (rank size : Nat) : Nat → Registry → Registry
  | 0, reg => reg
  | k + 1, reg => construct name rank size k (checkLogger reg name rank size).2

/-- How often a record sent to logger `name` is written: once per handler (`logging`). -/
def copies (reg : Registry) (name : List Char) : Nat := reg name

end Verif.Utils
