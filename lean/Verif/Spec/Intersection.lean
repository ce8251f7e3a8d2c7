import Mathlib.Data.Finset.Card
import Mathlib.Data.Finset.Range
import Verif.Model.Intersection
/-!
Independent specification of stable supports (C03-C06).  Only the array type of the model is
used.
-/
namespace Verif.Intersection.Spec
open Verif.Intersection

variable {K : Type} [Zero K] [DecidableEq K]

/-- The bootstraps in which coefficient `j` is nonzero at regularization parameter `l`. -/
def selectedIn (A : Arr3 K) (l j : Nat) : Finset Nat :=
  (Finset.range A.n0).filter fun b => A.get b l j ≠ 0

/-- `row` is the mask of the coefficients that are nonzero in at least `t` bootstraps at
    regularization parameter `l`. -/
def IsStable (A : Arr3 K) (t : Int) (l : Nat) (row : List Bool) : Prop :=
  row.length = A.n2 ∧
    ∀ j < A.n2, row[j]? = some true ↔ t ≤ ((selectedIn A l j).card : Int)

/-- `row` is the mask of the features that are stable for at least one of the `D` classes. -/
def IsStableAny (A : Arr3 K) (D : Nat) (t : Int) (l : Nat) (row : List Bool) : Prop :=
  row.length * D = A.n2 ∧
    ∀ j < row.length, row[j]? = some true ↔
      ∃ c < D, t ≤ ((selectedIn A l (c * row.length + j)).card : Int)

/-- Strict lexicographic order with `False < True`: at the first difference the smaller row
    has `False`. -/
def LexLt (a b : List Bool) : Prop :=
  ∃ i : Nat, (∀ j < i, a[j]? = b[j]?) ∧ a[i]? = some false ∧ b[i]? = some true

/-- Containment of masks. -/
def Contained (a b : List Bool) : Prop := ∀ j : Nat, a[j]? = some true → b[j]? = some true

end Verif.Intersection.Spec
