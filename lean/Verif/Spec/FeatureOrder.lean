import Verif.Spec.Symmetry
import Verif.Model.PoissonLbfgs
import Verif.Model.LogisticL1
/-!
Specification: the same data with the features in another order and with other signs, or with the rows in
another order.
-/
namespace Verif.FeatureOrder
open Verif.Lbfgs.Spec Verif.Py

variable {n p : Nat}

/-- The attributes of a fitted Poisson object in the new order of the features. -/
noncomputable def poisson (π : Equiv.Perm (Fin p)) (s : Fin p → ℝ) (o : Poisson.PObj p) : Poisson.PObj p :=
  ⟨o.coef.map (reorder π s), o.intercept⟩

/-- The new position of a column; columns after the features (the intercept) stay. -/
def column (π : Equiv.Perm (Fin p)) (j : Nat) : Nat := if h : j < p then π ⟨j, h⟩ else j

/-- The sign of a column. -/
def colSign (s : Fin p → ℝ) (j : Nat) : ℝ := if h : j < p then s ⟨j, h⟩ else 1

/-- A table with one column per feature (and perhaps one for the intercept) in the new order. -/
def table {ι : Type} (π : Equiv.Perm (Fin p)) (s : Fin p → ℝ) (M : ι → Nat → ℝ) : ι → Nat → ℝ :=
  fun i j => colSign s j * M i (column π j)

/-- The data of a logistic fit with the features in the new order. -/
def data (d : Logistic.L1Data n) (π : Equiv.Perm (Fin p)) (s : Fin p → ℝ) : Logistic.L1Data n :=
  { d with X := table π s d.X }

/-- The settings of a logistic fit in the new order: mask and starting coefficients are tables. -/
def settings (a : Logistic.PathArgs) (π : Equiv.Perm (Fin a.p)) (s : Fin a.p → ℝ) : Logistic.PathArgs :=
  { a with mask := a.mask.map fun m c j => m c (column π j)
           warm := a.warm.map fun w => (w.1, table π s w.2) }

/-- The data of a logistic fit with the rows in another order. -/
def dataRows (d : Logistic.L1Data n) (ρ : Equiv.Perm (Fin n)) : Logistic.L1Data n :=
  ⟨fun i => d.X (ρ i), fun i => d.y (ρ i), fun i => d.Y (ρ i), fun i => d.sw (ρ i)⟩

/-- The matrix of coefficients (one row per class, the intercept last) in the flat vector of an L1 fit
    (`logistic.py:723-727`). -/
def coefs (a : Logistic.PathArgs) (x : Nat → ℝ) : Nat → Nat → ℝ :=
  if a.multi then Logistic.transpose (Logistic.reshape a.k x) else Logistic.reshape a.cols x

/-- Two outcomes of an L1 fit that differ only by the order and the signs of the features. -/
def SameOutcome (a : Logistic.PathArgs) (π : Equiv.Perm (Fin a.p)) (s : Fin a.p → ℝ) :
    Except PyErr Logistic.L1Result → Except PyErr Logistic.L1Result → Prop
  | .ok (.point x), .ok (.point x') =>
    ∀ c j, c < a.rows → j < a.cols → coefs a x' c j = table π s (coefs a x) c j
  | .ok .allZero, .ok .allZero => True
  | .error e, .error e' => e = e'
  | _, _ => False

end Verif.FeatureOrder
