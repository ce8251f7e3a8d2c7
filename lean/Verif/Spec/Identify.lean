import Verif.Spec.LogisticMin
/-!
Specification: when samples tell features apart.
-/
namespace Verif.Spec.Identify
open Verif.Spec.LogisticMin

variable {n p : Nat}

/-- No score within the support vanishes on all samples but the zero one: no feature of the support is a
    combination of the others (and of a constant, where an intercept is fitted). -/
def Independent (fi : Bool) (S : Fin p → Bool) (X : Fin n → Fin p → ℝ) : Prop :=
  ∀ d e, Within fi S d e → (∀ i, score d e (X i) = 0) → d = 0 ∧ e = 0

end Verif.Spec.Identify
