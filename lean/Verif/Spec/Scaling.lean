import Verif.Model.Scaling
/-! Specifications for standardization and intercepts. -/
namespace Verif.Scaling

variable {n p : Nat}

/-- Total Poisson log-likelihood (up to the factorial term) of intercept `b` with offsets `eta`,
    with `0 * (-inf) = 0` for zero counts. -/
noncomputable def poisLik (eta : Fin n → ℝ) (y : Fin n → ℝ) (b : ℝ) : ℝ :=
  ∑ i, (y i * (b + eta i) - Real.exp (b + eta i))

/-- The English claim: the same fit on features in other units, evaluated on the same point
    expressed in the other units, predicts the same. -/
def UnitFree {n p : Nat} (fit : (Fin n → Fin p → ℝ) → (Fin n → ℝ) → (Fin p → ℝ) × ℝ)
    (X : Fin n → Fin p → ℝ) (y : Fin n → ℝ) (a c x : Fin p → ℝ) : Prop :=
  let m := fit X y
  let m' := fit (fun i j => a j * X i j + c j) y
  linPred m'.1 m'.2 (fun j => a j * x j + c j) = linPred m.1 m.2 x

end Verif.Scaling
