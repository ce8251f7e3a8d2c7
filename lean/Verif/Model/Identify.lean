import Verif.Model.LogisticMin
/-!
The gradient of a multinomial fit of `/repo/src/pyuoi/linear_model/logistic.py` as its optimiser sees it.
-/
namespace Verif.Logistic

variable {n p k : Nat}

/-- The gradient seen by `fmin_l_bfgs_b` for a multinomial problem (`logistic.py:630-640,676-697`,
    `842-889`): the entries within the mask, `df[mask]`; the others do not move and are zero here.  Without
    intercepts their part is absent, here zero. -/
noncomputable def multiTargetGrad (C : Option ℝ) (fi : Bool) (S : Fin k → Fin p → Bool)
    (X : Fin n → Fin p → ℝ) (y : Fin n → Fin k) (v : (Fin k → Fin p → ℝ) × (Fin k → ℝ)) :
    (Fin k → Fin p → ℝ) × (Fin k → ℝ) :=
  let g := multiLossGrad X (oneHot y) (invC C) none (fun _ => 1) (fun c => maskedW (S c) (v.1 c))
    (interceptArg fi v.2)
  (fun c j => if S c j then g.2.1 c j else 0, g.2.2.getD fun _ => 0)

/-- The vector at which a multinomial fit starts (`logistic.py:586-611`), split into coefficients and
    intercepts. -/
def startSplit (a : PathArgs) : (Fin a.k → Fin a.p → ℝ) × (Fin a.k → ℝ) :=
  (fun c j => startPoint a c j, fun c => if a.fi then startPoint a c a.p else 0)

end Verif.Logistic
