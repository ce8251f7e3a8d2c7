import Mathlib.Analysis.SpecialFunctions.Log.Basic
import Verif.Spec.Grid
import Mathlib.Analysis.Calculus.Deriv.Basic
/-!
The logistic objectives, written from their definition.
-/
namespace Verif.Spec.Logistic

variable {n p k : Nat}

/-- Binary: `1/n ∑ sw log(1 + exp(-s η)) + a/2 |w|²` with `η = b0 + X w` and signs `s`. -/
noncomputable def binObj (X : Fin n → Fin p → ℝ) (s sw : Fin n → ℝ) (a b0 : ℝ) (w : Fin p → ℝ) : ℝ :=
  1 / n * ∑ i, sw i * Real.log (1 + Real.exp (-(s i * (b0 + ∑ j, X i j * w j)))) +
    a / 2 * ∑ j, w j ^ 2

/-- Multinomial: `1/n ∑ sw (log ∑ exp η - ∑ Y η) + a/2 |W|²` with `η = B + X Wᵀ`. -/
noncomputable def multiObj (X : Fin n → Fin p → ℝ) (Y : Fin n → Fin k → ℝ) (sw : Fin n → ℝ) (a : ℝ)
    (B : Fin k → ℝ) (W : Fin k → Fin p → ℝ) : ℝ :=
  1 / n * ∑ i, sw i * (Real.log (∑ c, Real.exp (B c + ∑ j, X i j * W c j)) -
      ∑ c, Y i c * (B c + ∑ j, X i j * W c j)) +
    a / 2 * ∑ c, ∑ j, W c j ^ 2

/-- Binary objective with the L1 penalty `lam |w|₁`; labels zero and one. -/
noncomputable def binL1 (X : Fin n → Fin p → ℝ) (y : Fin n → Fin 2) (lam b0 : ℝ) (w : Fin p → ℝ) :
    ℝ :=
  binObj X (fun i => if y i = 1 then 1 else -1) (fun _ => 1) 0 b0 w + lam * ∑ j, |w j|

/-- Multinomial objective with the L1 penalty. -/
noncomputable def multiL1 (X : Fin n → Fin p → ℝ) (y : Fin n → Fin k) (lam : ℝ) (B : Fin k → ℝ)
    (W : Fin k → Fin p → ℝ) : ℝ :=
  multiObj X (fun i c => if y i = c then 1 else 0) (fun _ => 1) 0 B W + lam * ∑ c, ∑ j, |W c j|

/-- The binary objective with its L1 penalty. -/
noncomputable def binPen (X : Fin n → Fin p → ℝ) (y sw : Fin n → ℝ) (C : ℝ) (w : Fin p → ℝ) (b : ℝ) : ℝ :=
  binObj X y sw 0 b w + 1 / C * ∑ j, |w j|

/-- The multinomial objective with its L1 penalty. -/
noncomputable def multiPen (X : Fin n → Fin p → ℝ) (Y : Fin n → Fin k → ℝ) (sw : Fin n → ℝ) (C : ℝ)
    (W : Fin k → Fin p → ℝ) (B : Fin k → ℝ) : ℝ :=
  multiObj X Y sw 0 B W + 1 / C * ∑ c, ∑ j, |W c j|

/-- Some intercepts together with all-zero coefficients are a global minimiser. -/
def ZeroOptimalM (obj : (Fin k → ℝ) → (Fin k → Fin p → ℝ) → ℝ) : Prop :=
  ∃ B, ∀ B' W, obj B (fun _ _ => 0) ≤ obj B' W

/-- Number of samples with label `c`. -/
def count (y : Fin n → Fin k) (c : Fin k) : ℕ := (Finset.univ.filter fun i => y i = c).card

/-- The gradient of a pair (value, gradient) on the first `N` entries of a flat vector. -/
def Consistent (N : Nat) (f : (Nat → ℝ) → ℝ × (Nat → ℝ)) : Prop :=
  ∀ x d : Nat → ℝ, HasDerivAt (fun t : ℝ => (f fun i => x i + t * d i).1)
    (∑ i ∈ Finset.range N, (f x).2 i * d i) 0

end Verif.Spec.Logistic
