import Mathlib.Algebra.Order.Field.Rat
import Mathlib.Algebra.Order.Floor.Semiring
import Mathlib.Data.Rat.Floor
import Verif.Py.Err
/-!
The sizes of the training and test sets of the bootstraps of the UoI models in floating point
(`/repo/src/pyuoi/linear_model/base.py:251-254,342-345`, `decomposition/CUR.py:114-116`).  `rnd` is the rounding of the
arithmetic; `HeldOut.splitSizes` is the same without rounding.
-/
namespace Verif.SplitSize

/-- `test_size=1 - self.selection_frac` (`base.py:252`, `343`): the fraction as written is rounded when it is read. -/
def testSize (rnd : ℚ → ℚ) (frac : ℚ) : ℚ := rnd (1 - rnd frac)

/-- The training and test rows of `train_test_split(np.arange(n), test_size=1 - frac)` (scikit-learn 0.24, called at
    `base.py:251-254`, `342-345`, `CUR.py:114-116`): `ceil(test_size * n)` test rows; a test size outside the open unit
    interval and an empty training set are a `ValueError`.
    Without `stratify`.  Fewer than `2 ^ 53` rows, so that `n` is exact. -/
def split (rnd : ℚ → ℚ) (frac : ℚ) (n : Nat) : Except PyErr (Nat × Nat) :=
  if testSize rnd frac ≤ 0 ∨ 1 ≤ testSize rnd frac then .error .valueError
  else if n ≤ ⌈rnd (testSize rnd frac * n)⌉₊ then .error .valueError
  else .ok (n - ⌈rnd (testSize rnd frac * n)⌉₊, ⌈rnd (testSize rnd frac * n)⌉₊)

/-- The rows of a bootstrap of `UoI_CUR` (`decomposition/CUR.py:111-116`): the split above, except that
    `boots_frac == 1` takes every row. -/
def curRows (rnd : ℚ → ℚ) (frac : ℚ) (n : Nat) : Except PyErr Nat :=
  if rnd frac = 1 then .ok n else (split rnd frac n).map Prod.fst

end Verif.SplitSize
