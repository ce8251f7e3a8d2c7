import Mathlib.Analysis.SpecialFunctions.Exp
/-!
The penalised objectives the estimators document, written from their definition.
-/
namespace Verif.Spec.Grid

variable {n p : Nat}

/-- Elastic-net objective with intercept `b0` (docstring of `UoI_ElasticNet.get_reg_params`):
    `1/(2n) ||y - b0 - X b||² + λ (α |b|₁ + (1-α)/2 |b|²)`. -/
noncomputable def enObj (X : Fin n → Fin p → ℝ) (y : Fin n → ℝ) (lam alpha b0 : ℝ)
    (b : Fin p → ℝ) : ℝ :=
  1 / (2 * n) * ∑ i, (y i - b0 - ∑ j, X i j * b j) ^ 2 +
    lam * (alpha * ∑ j, |b j| + (1 - alpha) / 2 * ∑ j, b j ^ 2)

/-- Poisson objective with the same penalty:
    `1/n ∑ (exp η - y η) + λ (α |b|₁ + (1-α)/2 |b|²)` with `η = b0 + X b`. -/
noncomputable def poisObj (X : Fin n → Fin p → ℝ) (y : Fin n → ℝ) (lam alpha b0 : ℝ)
    (b : Fin p → ℝ) : ℝ :=
  1 / n * ∑ i, (Real.exp (b0 + ∑ j, X i j * b j) - y i * (b0 + ∑ j, X i j * b j)) +
    lam * (alpha * ∑ j, |b j| + (1 - alpha) / 2 * ∑ j, b j ^ 2)

/-- Some intercept together with all-zero coefficients is a global minimiser. -/
def ZeroOptimal (obj : ℝ → (Fin p → ℝ) → ℝ) : Prop :=
  ∃ b0, ∀ b0' b, obj b0 (fun _ => 0) ≤ obj b0' b

/-- The same without an intercept. -/
def ZeroOptimalNoIntercept (obj : ℝ → (Fin p → ℝ) → ℝ) : Prop :=
  ∀ b, obj 0 (fun _ => 0) ≤ obj 0 b

/-- `xs` decreases strictly from `hi` to `lo`, and is positive. -/
def DecreasesFrom (xs : List ℝ) (hi lo : ℝ) : Prop :=
  xs.Pairwise (· > ·) ∧ (∀ x ∈ xs, 0 < x) ∧ xs.head? = some hi ∧ xs.getLast? = some lo

end Verif.Spec.Grid
