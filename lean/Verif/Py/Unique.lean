/-!
`numpy.unique` on boolean arrays: sorted distinct values (1-d) or sorted distinct rows
(`axis=0`).
-/
namespace Verif.Py

/-- Lexicographic order on boolean rows with `False < True`, as used by
    `numpy.unique(..., axis=0)`. -/
def rowLt : List Bool → List Bool → Bool
  | [], [] => false
  | [], _ :: _ => true
  | _ :: _, [] => false
  | a :: as, b :: bs => if a == b then rowLt as bs else b

/-- Insert a row into a sorted list without repetition, unless it is already there. -/
def insertRow (r : List Bool) : List (List Bool) → List (List Bool)
  | [] => [r]
  | s :: ss => if rowLt r s then r :: s :: ss else if r == s then s :: ss else s :: insertRow r ss

/-- `numpy.unique(rows, axis=0)` for a 2-d boolean array, called at
    `/repo/src/pyuoi/linear_model/utils.py:143` and `base.py:734`.
    Modelled by insertion; the result (sorted distinct rows) is what NumPy documents. -/
def uniqueRows (rows : List (List Bool)) : List (List Bool) := rows.foldr insertRow []

/-- `numpy.unique` of a 1-d boolean array (also with `axis=0`): at most `[False, True]`. -/
def uniqueBools (xs : List Bool) : List Bool :=
  (if xs.contains false then [false] else []) ++ (if xs.contains true then [true] else [])

end Verif.Py
