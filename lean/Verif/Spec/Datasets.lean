import Mathlib.Data.Finset.Card
import Mathlib.Data.Fintype.Card
/-!
Sparsity, written without the code of the generators.
-/
namespace Verif.Spec.Datasets

/-- `out` is `draws` with all coordinates outside a set of `m` coordinates set to zero. -/
def SparseFrom {K : Type} [Zero K] (m : Nat) (draws out : List K) : Prop :=
  out.length = draws.length ∧
  ∃ keep : Finset (Fin draws.length), keep.card = m ∧
    ∀ i : Fin draws.length, out[i.val]? = some (if i ∈ keep then draws[i] else 0)

/-- Number of coordinates that are not zero. -/
def nonzeros {K : Type} [Zero K] [DecidableEq K] (l : List K) : Nat := l.countP (· ≠ 0)

end Verif.Spec.Datasets
