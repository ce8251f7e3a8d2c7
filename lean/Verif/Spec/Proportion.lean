import Mathlib.Algebra.Order.Field.Rat
import Verif.Spec.Intersection
/-! What a support for a proportion of the bootstraps is. -/
namespace Verif.Spec.Proportion
open Verif.Intersection Verif.Intersection.Spec
variable {K : Type} [Zero K] [DecidableEq K]

/-- At one penalty, the features that were selected in at least the proportion `p` of the bootstraps, and no others. -/
def Exactly (A : Arr3 K) (p : ℚ) (l : Nat) (row : List Bool) : Prop :=
  row.length = A.n2 ∧ ∀ j < A.n2, row[j]? = some true ↔ p * A.n0 ≤ (selectedIn A l j).card

/-- The same up to one bootstrap: features that are one bootstrap or less short of the proportion may be in. -/
def UpToOne (A : Arr3 K) (p : ℚ) (l : Nat) (row : List Bool) : Prop :=
  row.length = A.n2 ∧ ∀ j < A.n2, (p * A.n0 ≤ (selectedIn A l j).card → row[j]? = some true) ∧
    (row[j]? = some true → p * A.n0 ≤ (selectedIn A l j).card + 1)

/-- One row for each proportion and penalty (some may be equal), and no other rows. -/
def RowsFor (A : Arr3 K) (ps : List ℚ) (P : ℚ → Nat → List Bool → Prop) (rows : List (List Bool)) : Prop :=
  (∀ row ∈ rows, ∃ p ∈ ps, ∃ l < A.n1, P p l row) ∧ ∀ p ∈ ps, ∀ l < A.n1, ∃ row ∈ rows, P p l row

end Verif.Spec.Proportion
