import Verif.Py.Err
import Mathlib.Algebra.Field.Defs
import Mathlib.Order.Defs.LinearOrder
import Mathlib.Data.List.Sort
/-! NumPy reductions used by the estimation module. -/
namespace Verif.Py

/-- Loop with exceptions: evaluate `f` on every element, stop at the first exception. -/
def mapE {α β : Type} (f : α → Except PyErr β) : List α → Except PyErr (List β)
  | [] => .ok []
  | a :: as =>
    match f a with
    | .error e => .error e
    | .ok b =>
      match mapE f as with
      | .error e => .error e
      | .ok bs => .ok (b :: bs)

variable {K : Type}

/-- `np.argmax` of a non-empty vector: index of the first maximal entry.  `best` is the position
    and value of the best entry so far, `i` the position of the head. -/
def argmaxFrom [LinearOrder K] : Nat → K → Nat → List K → Nat
  | bi, _, _, [] => bi
  | bi, b, i, x :: xs => if b < x then argmaxFrom i x (i + 1) xs else argmaxFrom bi b (i + 1) xs

/-- `np.argmax(row)`: `ValueError` on an empty row (`base.py:417,434`).  Simplification: NaN (which
    `np.argmax` would report first) is not a value of `K`. -/
def argmax [LinearOrder K] : List K → Except PyErr Nat
  | [] => .error .valueError
  | x :: xs => .ok (argmaxFrom 0 x 1 xs)

/-- `np.median` of a vector: the middle of the sorted entries, or the mean of the two middle ones;
    `nan` for an empty vector (`base.py:421,440`). -/
def median [LinearOrder K] [Field K] (nan : K) (xs : List K) : K :=
  let s := xs.insertionSort (· ≤ ·)
  let n := s.length
  if n = 0 then nan
  else if n % 2 = 1 then s.getD (n / 2) nan
  else (s.getD (n / 2 - 1) nan + s.getD (n / 2) nan) / 2

end Verif.Py
