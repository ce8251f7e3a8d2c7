import Mathlib.Data.List.Basic
/-!
Bootstraps and classes.
-/
namespace Verif.Classes.Spec

/-- Every class of the data occurs among the given rows. -/
def AllClasses {L : Type} (y : List L) (rows : List Nat) : Prop :=
  ∀ l ∈ y, ∃ i ∈ rows, y[i]? = some l

end Verif.Classes.Spec
