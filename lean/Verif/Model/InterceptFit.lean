import Verif.Model.Logistic
/-!
Model of `fit_intercept_fixed_coef` in `/repo/src/pyuoi/linear_model/logistic.py`: the re-fit of the
intercept of a classifier after the coefficients have been averaged.  Real arithmetic; the clipping of
probabilities by `log_loss` (at 1e-15) is left out.  `eta` stands for `X.dot(coef_.T)`.
-/
namespace Verif.Logistic
open Verif.Py Verif.Utils

variable {n k : Nat}

/-- `f_df` of a binary problem (`logistic.py:217-220`), with `sklearn.metrics.log_loss` as documented. -/
noncomputable def interceptBin (eta : Fin n → ℝ) (y : Fin n → Fin 2) (b : ℝ) : ℝ × ℝ :=
  let py := fun i => sigmoid (eta i + b)
  (mean fun i => -(((y i : ℕ) : ℝ) * Real.log (py i) + (1 - ((y i : ℕ) : ℝ)) * Real.log (1 - py i)),
    mean py - mean fun i => ((y i : ℕ) : ℝ))

/-- The intercept of a binary problem (`logistic.py:222-224`): `opt` is the optimiser. -/
def refitBin (opt : ℝ → ℝ) : ℝ := opt 0

/-- `dlogpi_dintk` (`logistic.py:230-236`). -/
def dlogpi (ii : Fin (k + 1)) (pyi : Fin (k + 1) → ℝ) : Fin k → ℝ :=
  if ii = 0 then fun c => -pyi c.succ
  else fun c => (if c.val = ii.val - 1 then 1 else 0) - pyi c.succ

/-- `f_df` of a multinomial problem with `k + 1` classes (`logistic.py:226-241`): the intercept of the
    first class is 1. -/
noncomputable def interceptMulti (eta : Fin n → Fin (k + 1) → ℝ) (y : Fin n → Fin (k + 1)) (s : Fin k → ℝ) :
    ℝ × (Fin k → ℝ) :=
  let B : Fin (k + 1) → ℝ := Fin.cons 1 s
  let py := fun i => softmax fun c => eta i c + B c
  (mean fun i => -Real.log (py i (y i)),
    (List.finRange n).foldl (fun d i c => d c - dlogpi (y i) (py i) c / n) (fun _ => 0))

/-- The intercepts of a multinomial problem (`logistic.py:242-245`). -/
noncomputable def refitMulti (opt : (Fin k → ℝ) → Fin k → ℝ) : Fin (k + 1) → ℝ :=
  let B : Fin (k + 1) → ℝ := Fin.cons 1 (opt fun _ => 0)
  fun c => B c - Finset.univ.sup' Finset.univ_nonempty B

end Verif.Logistic
