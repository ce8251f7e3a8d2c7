import Mathlib.Data.List.Basic
/-! `np.array_split` on a 1-d array. -/
namespace Verif.Py

/-- Start of part `i` when `N` elements are split into `k` parts: the first `N % k` parts have
    `N / k + 1` elements, the others `N / k` (NumPy `array_split`, used at
    `/repo/src/pyuoi/linear_model/base.py:236,243,333`). -/
def splitStart (N k i : Nat) : Nat := i * (N / k) + min i (N % k)

/-- `np.array_split(xs, k)[i]` (`base.py:236,243,333`). -/
def splitPart {α : Type} (xs : List α) (k i : Nat) : List α :=
  (xs.drop (splitStart xs.length k i)).take
    (splitStart xs.length k (i + 1) - splitStart xs.length k i)

end Verif.Py
