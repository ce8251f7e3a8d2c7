import Verif.Spec.Intersection
/-! Selection coefficients for more penalties. -/
namespace Verif.Spec.MoreCandidates
open Verif.Intersection

/-- `B` has the selection coefficients of `A`, and perhaps those of further penalties. -/
def Extends {K : Type} (A B : Arr3 K) : Prop :=
  B.n0 = A.n0 ∧ B.n2 = A.n2 ∧
    ∀ l < A.n1, ∃ l' < B.n1, ∀ b < A.n0, ∀ j < A.n2, B.get b l' j = A.get b l j

end Verif.Spec.MoreCandidates
