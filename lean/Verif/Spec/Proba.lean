import Mathlib.Data.Real.Basic
/-! What the probabilities of a classifier should be. -/
namespace Verif.Spec.Proba

/-- A probability vector for `k` classes in which every class is possible and none is certain. -/
def Distribution (k : Nat) (p : List ℝ) : Prop := p.length = k ∧ (∀ q ∈ p, 0 < q ∧ q < 1) ∧ p.sum = 1

/-- Position `i` is the first of the most probable ones. -/
def FirstMost (p : List ℝ) (i : Nat) : Prop :=
  ∃ q, p[i]? = some q ∧ (∀ q' ∈ p, q' ≤ q) ∧ ∀ j < i, ∀ q', p[j]? = some q' → q' < q

end Verif.Spec.Proba
