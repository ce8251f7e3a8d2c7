import Verif.Model.FailedFit
/-!
Specification of what predictions depend on.
-/
namespace Verif.Spec.FailedFit
open Verif.Py Verif.Fit Verif.FailedFit Verif.Estimator

variable {D L K G S M RP : Type}

/-- Two objects predict alike: `predict`, `predict_proba` and `decision_function` use `coef_`, `intercept_`
    and `classes_` and nothing else. -/
structure PredictAlike (o o' : Est L K G S RP) : Prop where
  coef : o'.obj.coef = o.obj.coef
  intercept : o'.obj.intercept = o.obj.intercept
  classes : o'.classes = o.classes

/-- Refitting the intercept and undoing the standardisation raise on no coefficients. -/
def EndsWell (env : Env K G S M RP) : Prop :=
  (∀ w, ∃ i, env.fitIntercept w = .ok i) ∧ ∀ w i, ∃ r, env.post w i = .ok r

/-- The numbers of a float array. -/
def nums [Zero K] (a : NDArr K) : List K :=
  a.data.map fun s => match s with
    | .f x => x
    | _ => 0

/-- The label that a binary classifier gives to the row `x`: the second class if the value of the linear
    model is positive, and the first otherwise; `none` if it is not fitted. -/
def labelOf [LinearOrder K] [Field K] (o : Est L K G S RP) (x : List K) : Option L := do
  let w ← o.obj.coef
  let b ← o.obj.intercept
  let cs ← o.classes
  cs[if 0 < (List.zipWith (· * ·) x (nums w)).sum + (nums b).headD 0 then 1 else 0]?

end Verif.Spec.FailedFit
