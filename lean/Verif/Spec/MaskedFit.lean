import Mathlib.Algebra.BigOperators.Group.List.Basic
import Verif.Model.MaskedFit
/-!
Specification of logistic models with standardised features.
-/
namespace Verif.Spec.MaskedFit
open Verif.Py Verif.MaskedFit

variable {L K : Type}

/-- The inner product of two vectors. -/
def inner [Mul K] [AddMonoid K] (u v : List K) : K := (List.zipWith (· * ·) u v).sum

/-- The value at the row `z` of a linear model whose parameters are listed with the intercept, if there is
    one, at the end. -/
def value [Mul K] [AddMonoid K] [One K] (fi : Bool) (r z : List K) : K := inner r (if fi then z ++ [1] else z)

/-- The matrix returned by the optimisation has one row per class and a column per feature, and one for the
    intercept if there is one. -/
def Shaped (s : Settings K) (rows p : Nat) (W : List (List K)) : Prop :=
  W.length = rows ∧ ∀ r ∈ W, r.length = p + (if s.fi then 1 else 0)

/-- A sequence of calls of `fit` on one object; the results in order, and the object at the end. -/
def fits [LinearOrder L] [LinearOrder K] [Field K] (s : Settings K) :
    List (Outside K × List (List K) × List L × Option (List (List K))) → Obj L K →
      Obj L K × List (Except PyErr Unit)
  | [], o => (o, [])
  | (out, X, y, mask) :: l, o =>
    let r := fit s out o X y mask
    let t := fits s l r.1
    (t.1, r.2 :: t.2)

end Verif.Spec.MaskedFit
