import Mathlib.Analysis.SpecialFunctions.Log.Basic
import Mathlib.Analysis.Real.Pi.Bounds
/-! What the scores mean: the log-densities of the Gaussian and Poisson distributions. -/
namespace Verif.Spec.Utils

/-- Log-density of independent Gaussian residuals `e` with variance `v`. -/
noncomputable def gaussLL {n : Nat} (e : Fin n → ℝ) (v : ℝ) : ℝ :=
  ∑ i, (-(1 / 2) * Real.log (2 * Real.pi * v) - e i ^ 2 / (2 * v))

/-- Log-probability of independent Poisson counts `y` with means `lam`. -/
noncomputable def poissonLL {n : Nat} (y : Fin n → ℕ) (lam : Fin n → ℝ) : ℝ :=
  ∑ i, (y i * Real.log (lam i) - lam i - Real.log (y i).factorial)

end Verif.Spec.Utils
