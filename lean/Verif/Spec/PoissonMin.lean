import Verif.Spec.LogisticMin
/-!
Specification: data for which the Poisson likelihood has no largest value.
-/
namespace Verif.Spec.PoissonMin
open Verif.Spec.LogisticMin

variable {n p : Nat}

/-- Some scores are zero where something was counted, not positive where nothing was, and negative
    somewhere; an intercept counts only where one is fitted. -/
def Receding (fi : Bool) (X : Fin n → Fin p → ℝ) (y : Fin n → ℝ) : Prop :=
  ∃ d e, Within fi (fun _ => true) d e ∧ (∀ i, 0 < y i → score d e (X i) = 0) ∧
    (∀ i, y i = 0 → score d e (X i) ≤ 0) ∧ ∃ i, score d e (X i) < 0

end Verif.Spec.PoissonMin
