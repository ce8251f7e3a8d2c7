import Mathlib.Algebra.Group.Defs
/-!
What the vector routines should do: replace the first entries of a block, and nothing else.
-/
namespace Verif.Spec.Sse

variable {K : Type}

/-- The block `x` with its entries below `n` replaced by those of `f`. -/
def upTo (n : Nat) (f x : Nat → K) : Nat → K := fun k => if k < n then f k else x k

/-- The entries from `m` up to `N` are zero. -/
def Pad [Zero K] (m N : Nat) (x : Nat → K) : Prop := ∀ k, m ≤ k → k < N → x k = 0

/-- The vector of the first `m` entries. -/
def view (m : Nat) (x : Nat → K) : Fin m → K := fun i => x i

end Verif.Spec.Sse
