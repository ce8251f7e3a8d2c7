import Mathlib.Algebra.Order.Field.Basic
/-!
Brackets of a line search and polynomials on a line, written without the code.
-/
namespace Verif.Lbfgs.Spec
variable {K : Type} [Field K] [LinearOrder K] [IsStrictOrderedRing K]

/-- `x` and `y` bracket a minimiser of `f`, whose derivative is `d`: the value at `x` is not above that
    at `y`, and `f` does not increase when leaving `x` towards `y`. -/
def Brackets (f d : K → K) (x y : K) : Prop := x ≠ y ∧ f x ≤ f y ∧ d x * (y - x) ≤ 0

/-- A cubic polynomial. -/
def cubic (a b c e t : K) : K := a * t ^ 3 + b * t ^ 2 + c * t + e

/-- Its derivative. -/
def cubic' (a b c t : K) : K := 3 * a * t ^ 2 + 2 * b * t + c

/-- Its second derivative. -/
def cubic'' (a b t : K) : K := 6 * a * t + 2 * b

end Verif.Lbfgs.Spec
