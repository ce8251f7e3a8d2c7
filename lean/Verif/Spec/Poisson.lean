import Mathlib.Analysis.Real.Sqrt
import Verif.Spec.Grid
/-!
What the pieces of the Poisson solver should do, from their definition.
-/
namespace Verif.Spec.Poisson

variable {n p : Nat}

/-- The function of which soft-thresholding is the minimiser. -/
noncomputable def proxObj (x t b : ℝ) : ℝ := (b - x) ^ 2 / 2 + t * |b|

/-- The penalised weighted least-squares surrogate of one Newton step:
    `1/(2n) ∑ w (z - b0 - X b)² + λ (α |b|₁ + (1-α)/2 |b|²)`. -/
noncomputable def surrogate (X : Fin n → Fin p → ℝ) (w z : Fin n → ℝ) (lam alpha b0 : ℝ)
    (b : Fin p → ℝ) : ℝ :=
  1 / (2 * n) * ∑ i, w i * (z i - b0 - ∑ j, X i j * b j) ^ 2 +
    lam * (alpha * ∑ j, |b j| + (1 - alpha) / 2 * ∑ j, b j ^ 2)

/-- The smooth part of the Poisson objective with sample weights and an L2 penalty:
    `1/n ∑ sw (exp η - y η) + l2/2 |b|²`. -/
noncomputable def smoothLoss (X : Fin n → Fin p → ℝ) (y sw : Fin n → ℝ) (l2 b0 : ℝ)
    (b : Fin p → ℝ) : ℝ :=
  1 / n * ∑ i, sw i * (Real.exp (b0 + ∑ j, X i j * b j) - y i * (b0 + ∑ j, X i j * b j)) +
    l2 / 2 * ∑ j, b j ^ 2

/-- The mean of a feature. -/
noncomputable def colMean (X : Fin n → Fin p → ℝ) (j : Fin p) : ℝ := (∑ i, X i j) / n

/-- Its standard deviation, one for a constant feature. -/
noncomputable def colSd (X : Fin n → Fin p → ℝ) (j : Fin p) : ℝ :=
  open Classical in
  if ∀ i, X i j = colMean X j then 1 else Real.sqrt ((∑ i, (X i j - colMean X j) ^ 2) / n)

/-- The elastic-net objective with the coefficients measured in units `sd`:
    `1/n ∑ sw (exp η - y η) + α (l1 ∑ |sd b| + (1 - l1)/2 ∑ (sd b)²)`. -/
noncomputable def enetObj (X : Fin n → Fin p → ℝ) (y sw : Fin n → ℝ) (alpha l1 : ℝ) (sd : Fin p → ℝ) (b0 : ℝ)
    (b : Fin p → ℝ) : ℝ :=
  smoothLoss X y sw 0 b0 b + alpha * (l1 * ∑ j, |sd j * b j| + (1 - l1) / 2 * ∑ j, (sd j * b j) ^ 2)

end Verif.Spec.Poisson
