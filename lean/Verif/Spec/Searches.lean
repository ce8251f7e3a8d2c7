import Verif.Spec.Lbfgs
/-!
What the documentation promises for each name of a line search, on the points seen by the caller.
-/
namespace Verif.Lbfgs.Spec
variable {n : Nat} {K : Type} [Field K] [LinearOrder K] [IsStrictOrderedRing K]

/-- A point with the value and the gradient there. -/
structure Pt (n : Nat) (K : Type) where
  x : Fin n → K
  f : K
  g : Fin n → K

/-- The conditions under which the search called `name` may move from `old` to `new`
    (documentation of `fmin_lbfgs`, `lbfgs/__init__.py:115-124`). -/
def Accepts (name : String) (ftol wolfe gtol : K) (old new : Pt n K) : Prop :=
  let before := dot old.g fun i => new.x i - old.x i
  let after := dot new.g fun i => new.x i - old.x i
  new.f ≤ old.f + ftol * before ∧
  (name = "wolfe" ∨ name = "strongwolfe" → wolfe * before ≤ after) ∧
  (name = "strongwolfe" → |after| ≤ wolfe * |before|) ∧
  (name = "default" ∨ name = "morethuente" → |after| ≤ gtol * |before|)

instance (name : String) (ftol wolfe gtol : K) (old new : Pt n K) :
    Decidable (Accepts name ftol wolfe gtol old new) := inferInstanceAs (Decidable (_ ∧ _))

end Verif.Lbfgs.Spec
