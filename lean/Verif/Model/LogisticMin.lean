import Verif.Model.Logistic
/-!
The objectives that the fits of `/repo/src/pyuoi/linear_model/logistic.py` hand to their optimisers, as
functions of all coefficients and intercepts: with the `C=np.inf` of the estimation model of
`UoI_L1Logistic`, with a finite `C`, and with the L1 penalty of its selection model.
-/
namespace Verif.Logistic

variable {n p k : Nat}

/-- `1. / C` (`logistic.py:679,695`); `none` is `np.inf`, the value in the estimation model of
    `UoI_L1Logistic` (`logistic.py:146-147`). -/
noncomputable def invC : Option ℝ → ℝ
  | none => 0
  | some C => 1 / C

/-- `x0[mask] = x` (`logistic.py:658-660,692`) for a binary problem: coefficients outside the mask are
    zero.  With `shared_support` the columns outside the support are not even passed
    (`base.py:377`), which comes to the same. -/
def maskedW (S : Fin p → Bool) (w : Fin p → ℝ) : Fin p → ℝ := fun j => if S j then w j else 0

/-- The intercept entry of the parameter vector, if there is one (`logistic.py:568-570,686`). -/
def interceptArg {α : Type} (fi : Bool) (b : α) : Option α := if fi then some b else none

/-- The function minimised by `fmin_l_bfgs_b` for a binary problem (`logistic.py:655-665,676-697`),
    without sample weights. -/
noncomputable def binTarget (C : Option ℝ) (fi : Bool) (S : Fin p → Bool) (X : Fin n → Fin p → ℝ)
    (y : Fin n → ℝ) (v : (Fin p → ℝ) × ℝ) : ℝ :=
  (binLossGrad X y (invC C) none (fun _ => 1) (maskedW S v.1) (interceptArg fi v.2)).1

/-- The function minimised by `fmin_lbfgs` for a binary problem with penalty `'l1'`
    (`logistic.py:666-670,711-718`): the library adds `orthantwise_c` times the absolute values. -/
noncomputable def binTargetL1 (C : ℝ) (fi : Bool) (S : Fin p → Bool) (X : Fin n → Fin p → ℝ)
    (y : Fin n → ℝ) (v : (Fin p → ℝ) × ℝ) : ℝ :=
  (binLossGrad X y 0 none (fun _ => 1) (maskedW S v.1) (interceptArg fi v.2)).1 +
    1 / C * ∑ j, |v.1 j|

/-- The function minimised by `fmin_l_bfgs_b` for a multinomial problem (`logistic.py:617-641,676-697`). -/
noncomputable def multiTarget (C : Option ℝ) (fi : Bool) (S : Fin k → Fin p → Bool)
    (X : Fin n → Fin p → ℝ) (y : Fin n → Fin k) (v : (Fin k → Fin p → ℝ) × (Fin k → ℝ)) : ℝ :=
  (multiLossGrad X (oneHot y) (invC C) none (fun _ => 1) (fun c => maskedW (S c) (v.1 c))
    (interceptArg fi v.2)).1

/-- The function minimised by `fmin_lbfgs` for a multinomial problem with penalty `'l1'`
    (`logistic.py:642-654,711-718`); the order of the variables is immaterial here. -/
noncomputable def multiTargetL1 (C : ℝ) (fi : Bool) (S : Fin k → Fin p → Bool)
    (X : Fin n → Fin p → ℝ) (y : Fin n → Fin k) (v : (Fin k → Fin p → ℝ) × (Fin k → ℝ)) : ℝ :=
  (multiLossGrad X (oneHot y) 0 none (fun _ => 1) (fun c => maskedW (S c) (v.1 c))
    (interceptArg fi v.2)).1 + 1 / C * ∑ c, ∑ j, |v.1 c j|

/-- The gradient seen by `fmin_l_bfgs_b` for a binary problem, whose entries it compares with `pgtol`
    (`logistic.py:676-697`). -/
noncomputable def binTargetGrad (C : Option ℝ) (fi : Bool) (S : Fin p → Bool) (X : Fin n → Fin p → ℝ)
    (y : Fin n → ℝ) (v : (Fin p → ℝ) × ℝ) : (Fin p → ℝ) × Option ℝ :=
  let g := binLossGrad X y (invC C) none (fun _ => 1) (maskedW S v.1) (interceptArg fi v.2)
  (fun j => if S j then g.2.1 j else 0, g.2.2)

end Verif.Logistic
