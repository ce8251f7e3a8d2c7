import Verif.Model.Poisson
/-!
The objective that a Poisson fit hands to L-BFGS, as a function of coefficients and intercept
(`/repo/src/pyuoi/linear_model/poisson.py`), and the gradient the stopping test of the library sees.
-/
namespace Verif.Poisson

variable {n p : Nat}

/-- `coef = np.append(coef, intercept)` only with `fit_intercept` (`poisson.py:104-105`). -/
def interceptEntry (fi : Bool) (b : ℝ) : Option ℝ := if fi then some b else none

/-- The function minimised by `fmin_lbfgs` (`poisson.py:107-122,701-751`), without sample weights: the
    library adds `orthantwise_c = alpha * l1_ratio` times the absolute values of the coefficients.  The
    estimation model of `UoI_Poisson` has `alpha = 0` (`poisson.py:497-504`). -/
noncomputable def poisTarget (alpha l1 : ℝ) (fi : Bool) (X : Fin n → Fin p → ℝ) (y : Fin n → ℝ)
    (v : (Fin p → ℝ) × ℝ) : ℝ :=
  (lossGrad X y (fun _ => 1) (alpha * (1 - l1)) v.1 (interceptEntry fi v.2)).1 +
    alpha * l1 * ∑ j, |v.1 j|

/-- The gradient that `fmin_lbfgs` sees with `alpha = 0` (`poisson.py:107-111,742-750`). -/
noncomputable def poisGrad (fi : Bool) (X : Fin n → Fin p → ℝ) (y : Fin n → ℝ) (v : (Fin p → ℝ) × ℝ) :
    (Fin p → ℝ) × Option ℝ :=
  (lossGrad X y (fun _ => 1) 0 v.1 (interceptEntry fi v.2)).2

end Verif.Poisson
