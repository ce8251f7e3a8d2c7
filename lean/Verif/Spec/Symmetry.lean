import Verif.Model.LbfgsPy
import Verif.Spec.Lbfgs
/-!
Specification: changes of variables that the minimiser should not notice.
-/
namespace Verif.Lbfgs.Spec
open Finset

variable {n : Nat} {σ K : Type} [Field K]

/-- A rotation (or reflection): a linear map that keeps inner products. -/
structure Rotation (T : (Fin n → K) → Fin n → K) : Prop where
  add : ∀ x y, T (fun i => x i + y i) = fun i => T x i + T y i
  smul : ∀ (a : K) x, T (fun i => a * x i) = fun i => a * T x i
  inner : ∀ x y, ∑ i, T x i * T y i = ∑ i, x i * y i

/-- A change of the order and of the signs of the variables. -/
def reorder (π : Equiv.Perm (Fin n)) (sign : Fin n → K) (x : Fin n → K) : Fin n → K := fun i => sign i * x (π i)

/-- The same objective and progress callable in the changed variables. -/
structure SameProblem (T : (Fin n → K) → Fin n → K) (c c' : Callables n σ K) : Prop where
  sqrt : c'.sqrt = c.sqrt
  f : ∀ x, c'.f (T x) = ((c.f x).1, T (c.f x).2)
  progress : ∀ cb x g f xn gn st k ls, c'.progress cb (T x) (T g) f xn gn st k ls = c.progress cb x g f xn gn st k ls

/-- The same result in the changed variables. -/
def changed (T : (Fin n → K) → Fin n → K) : Res n K → Res n K
  | .returned x w => .returned (T x) w
  | .raised e msg => .raised e msg

end Verif.Lbfgs.Spec
