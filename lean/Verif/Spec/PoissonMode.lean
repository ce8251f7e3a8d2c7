import Mathlib.Analysis.SpecialFunctions.Exp
/-!
The probabilities of a Poisson distribution.
-/
namespace Verif.Spec.Poisson

/-- The probability of the count `k` if the mean is `mu`. -/
noncomputable def poisProb (mu : ℝ) (k : Nat) : ℝ := Real.exp (-mu) * mu ^ k / (Nat.factorial k)

/-- `k` is a most probable count. -/
def IsMode (mu : ℝ) (k : Nat) : Prop := ∀ j, poisProb mu j ≤ poisProb mu k

end Verif.Spec.Poisson
