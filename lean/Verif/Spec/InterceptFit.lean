import Mathlib.Analysis.SpecialFunctions.Log.Basic
import Mathlib.Data.Fintype.BigOperators
import Mathlib.Algebra.BigOperators.Fin
/-!
The average negative log-likelihood of labels, written from its definition.
-/
namespace Verif.Spec.InterceptFit

variable {n k : Nat}

/-- Probability of label 1 for a linear predictor. -/
noncomputable def prob1 (t : ℝ) : ℝ := Real.exp t / (1 + Real.exp t)

/-- Average negative log-likelihood of labels 0 and 1 with linear predictors `eta i + b`. -/
noncomputable def nll (eta : Fin n → ℝ) (y : Fin n → Fin 2) (b : ℝ) : ℝ :=
  1 / n * ∑ i, -Real.log (if y i = 1 then prob1 (eta i + b) else 1 - prob1 (eta i + b))

/-- Probability of class `c`. -/
noncomputable def prob (t : Fin k → ℝ) (c : Fin k) : ℝ := Real.exp (t c) / ∑ c', Real.exp (t c')

/-- Average negative log-likelihood of class labels with linear predictors `eta i c + B c`. -/
noncomputable def nllM (eta : Fin n → Fin k → ℝ) (y : Fin n → Fin k) (B : Fin k → ℝ) : ℝ :=
  1 / n * ∑ i, -Real.log (prob (fun c => eta i c + B c) (y i))

end Verif.Spec.InterceptFit
