import Mathlib.Data.Matrix.Mul
import Verif.Spec.Lbfgs
/-!
Specifications for the search direction: the textbook two-loop recursion and BFGS matrix.
-/
namespace Verif.Lbfgs.Spec
open Matrix

variable {n : Nat} {K : Type} [Field K] [LinearOrder K] [IsStrictOrderedRing K]

/-- The correction pairs (differences of points, differences of gradients) between consecutive entries
    of a list of points with their gradients, newest first. -/
def corrections : List ((Fin n → K) × (Fin n → K)) → List ((Fin n → K) × (Fin n → K))
  | a :: b :: l => (fun i => a.1 i - b.1 i, fun i => a.2 i - b.2 i) :: corrections (b :: l)
  | _ => []

/-- The two-loop recursion as a recursion on the correction pairs, newest first; `gamma` scales the
    initial matrix. -/
def twoLoop (gamma : K) : List ((Fin n → K) × (Fin n → K)) → (Fin n → K) → Fin n → K
  | [], q => fun i => q i * gamma
  | (s, y) :: l, q =>
    let a := dot s q / dot y s
    let r := twoLoop gamma l (fun i => q i - a * y i)
    fun i => r i + (a - dot y r / dot y s) * s i

/-- The BFGS approximation of the inverse Hessian: the update formula applied to the pairs, oldest
    first, starting from `gamma` times the identity. -/
def bfgs (gamma : K) : List ((Fin n → K) × (Fin n → K)) → Matrix (Fin n) (Fin n) K
  | [] => gamma • (1 : Matrix (Fin n) (Fin n) K)
  | (s, y) :: l =>
    let rho := (dot y s)⁻¹
    (1 - rho • vecMulVec s y) * bfgs gamma l * (1 - rho • vecMulVec y s) + rho • vecMulVec s s

/-- The scaling of the initial matrix, from the newest pair. -/
def scale : List ((Fin n → K) × (Fin n → K)) → K
  | [] => 1
  | (s, y) :: _ => dot y s / dot y y

end Verif.Lbfgs.Spec
