import Mathlib.Data.Fintype.Card
import Mathlib.Data.Real.Basic
import Mathlib.Algebra.BigOperators.Group.Finset.Basic
/-!
Sample weights and repeated rows.
-/
namespace Verif.Weights.Spec

/-- The data set whose row `j` is row `rep j` of the given one contains row `i` exactly `m i` times. -/
def Repeats {n N : Nat} (rep : Fin N → Fin n) (m : Fin n → Nat) : Prop :=
  ∀ i, (Finset.univ.filter fun j => rep j = i).card = m i

/-- A point at which an objective is smallest. -/
def Minimiser {α : Type} (f : α → ℝ) (x : α) : Prop := ∀ z, f x ≤ f z

end Verif.Weights.Spec
