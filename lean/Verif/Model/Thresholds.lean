import Mathlib.Data.Rat.Floor
import Verif.Py.Err
/-!
Model of `stability_selection_to_threshold`
(`/repo/src/pyuoi/linear_model/utils.py:4-80`).
-/
namespace Verif.Thresholds

/-- A Python `float`: a finite value (kept as the rational it denotes) or one of the special
    values.  Simplification: signed zero is not distinguished. -/
inductive PyFloat where
  | fin (q : ℚ)
  | nan
  | posInf
  | negInf
  deriving DecidableEq, Repr

/-- One element of a Python list as seen by `isinstance` at
    `linear_model/utils.py:40,45`; `bool` is a subclass of `int`, so `True` is `int 1`.
    `other` covers everything else, including NumPy integer scalars. -/
inductive PyItem where
  | float (f : PyFloat)
  | int (z : Int)
  | other
  deriving DecidableEq, Repr

/-- The argument `stability_selection` (`linear_model/utils.py:4`): what the chain of
    `isinstance` tests of lines 26-68 can distinguish.  `arrOther` is an ndarray whose dtype
    is neither floating nor integer; `other` any other object (tuple, str, NumPy integer
    scalar, ...).  Simplification: arrays are one-dimensional. -/
inductive Arg where
  | float (f : PyFloat)
  | int (z : Int)
  | list (xs : List PyItem)
  | arrFloat (xs : List PyFloat)
  | arrInt (xs : List Int)
  | arrOther
  | other
  deriving DecidableEq, Repr

/-- Floating-point facts used by the conversion, kept abstract.
    `fl q` is the double nearest to the exact product `q` (possibly overflowing);
    `cast x` is what `ndarray.astype('int')` produces for one element (C cast). -/
structure FloatSem where
  /-- rounding of an exact product to a double -/
  fl : ℚ → PyFloat
  /-- element of `.astype('int')` -/
  cast : PyFloat → Int

/-- Truncation towards zero: Python's `int(x)` on a finite float
    (`linear_model/utils.py:27`). -/
def trunc (q : ℚ) : Int := if 0 ≤ q then ⌊q⌋ else ⌈q⌉

/-- `x * n_boots` for a double `x` and an int (`linear_model/utils.py:28,42,56`). -/
def mulN (S : FloatSem) (x : PyFloat) (n : Nat) : PyFloat :=
  match x with
  | .fin q => S.fl (q * n)
  | .nan => .nan
  | .posInf => if n = 0 then .nan else .posInf
  | .negInf => if n = 0 then .nan else .negInf

/-- Python's `int(x)` for a float (`linear_model/utils.py:27`): `ValueError` for NaN,
    `OverflowError` for infinities. -/
def pyInt (x : PyFloat) : Except PyErr Int :=
  match x with
  | .fin q => .ok (trunc q)
  | .nan => .error .valueError
  | .posInf => .error .overflowError
  | .negInf => .error .overflowError

/-- `isinstance(idx, float)` (`linear_model/utils.py:40`). -/
def isFloat : PyItem → Option PyFloat
  | .float f => some f
  | _ => none

/-- `isinstance(idx, int)` (`linear_model/utils.py:45`). -/
def isInt : PyItem → Option Int
  | .int z => some z
  | _ => none

/-- Lines 26-68 of `linear_model/utils.py`: conversion before the bounds check, together with
    the `.astype('int')` of line 72.  Simplification: integers outside the int64 range are
    kept exact (in the code they overflow or wrap and are rejected as well). -/
def convert (S : FloatSem) (a : Arg) (n : Nat) : Except PyErr (List Int) :=
  match a with
  | .float f => do
      let t ← pyInt (mulN S f n)
      return [t]
  | .int z => .ok [z]
  | .list xs =>
      match xs.mapM isFloat with
      | some fs => .ok (fs.map fun f => S.cast (mulN S f n))
      | none =>
        match xs.mapM isInt with
        | some zs => .ok zs
        | none => .error .valueError
  | .arrFloat xs => .ok (xs.map fun f => S.cast (mulN S f n))
  | .arrInt xs => .ok xs
  | .arrOther => .error .valueError
  | .other => .error .valueError

/-- `stability_selection_to_threshold` (`linear_model/utils.py:4-80`): conversion, then the
    bounds check of lines 73-78. -/
def stabilityToThreshold (S : FloatSem) (a : Arg) (n : Nat) : Except PyErr (List Int) := do
  let ts ← convert S a n
  if ts.all (fun t => decide (t ≤ (n : Int))) && ts.all (fun t => decide (1 ≤ t)) then
    return ts
  else
    .error .valueError

end Verif.Thresholds
