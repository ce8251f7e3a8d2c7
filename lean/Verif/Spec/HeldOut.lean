import Mathlib.Algebra.Order.Field.Basic
import Mathlib.Algebra.BigOperators.Group.List.Basic
/-!
Specification of the choice of a candidate by held-out error.
-/
namespace Verif.Spec.HeldOut

variable {K : Type}

/-- The squared error of predictions. -/
def sqError [Field K] (y p : List K) : K := ((y.zip p).map fun q => (q.1 - q.2) * (q.1 - q.2)).sum

/-- `i` is the first of the candidates whose squared error is smallest. -/
def IsFirstBest [LinearOrder K] [Field K] (y : List K) (ps : List (List K)) (i : Nat) : Prop :=
  ∃ p, ps[i]? = some p ∧ (∀ q ∈ ps, sqError y p ≤ sqError y q) ∧
    ∀ j < i, ∀ q, ps[j]? = some q → sqError y p < sqError y q

/-- The entries are not all equal. -/
def Varies (y : List K) : Prop := ∃ a ∈ y, ∃ b ∈ y, a ≠ b

end Verif.Spec.HeldOut
