import Verif.Model.Cur
import Verif.Model.Nmf
/-!
Model of the estimator objects of `/repo/src/pyuoi/decomposition`: `transform` on any object and
`fit_transform`.
-/
namespace Verif.Transform
open Verif.Py Verif.Cur

variable {K : Type} [Field K] [LinearOrder K]

/-- A `UoI_CUR` or `CUR` object (`CUR.py:50-61`, `270-278`): the constructors set no fitted attributes;
    `fit` sets `column_indices_` and `components_` as its last actions (`CUR.py:135-140`, `313-315`), so a
    `fit` that raises leaves the object as it was. -/
abbrev Obj (K : Type) := Option (Fitted K)

/-- The constructors `UoI_CUR(...)` and `CUR(...)` (`CUR.py:50-61`, `270-278`) as far as the fitted
    attributes are concerned. -/
def new (K : Type) : Obj K := none

/-- `obj.fit(...)` with the given outcome (`CUR.py:135-141`, `313-316`). -/
def afterFit (obj : Obj K) (r : Except PyErr (Fitted K)) : Except PyErr Unit × Obj K :=
  match r with
  | .error e => (.error e, obj)
  | .ok f => (.ok (), some f)

/-- `obj.transform(X)` (`CUR.py:203-219`, `318-334`): `check_is_fitted` raises `NotFittedError` when the
    fitted attribute is missing. -/
def transform {m : Nat} (obj : Obj K) (X : List (Fin m → K)) : Except PyErr (List (List K)) :=
  match obj with
  | none => .error .notFitted
  | some f => Cur.transform f X

/-- `obj.fit_transform(X, ...)` (`CUR.py:221-236`, `336-351`): `fit` and then `transform` of the same data;
    `r` is the outcome of `fit`.  (There is no argument `stratify`.) -/
def fitTransform {m : Nat} (obj : Obj K) (r : Except PyErr (Fitted K)) (X : List (Fin m → K)) :
    Except PyErr (List (List K)) × Obj K :=
  match afterFit obj r with
  | (.error e, obj) => (.error e, obj)
  | (.ok _, obj) => (transform obj X, obj)

/-- `UoI_NMF_Base.fit_transform` (`NMF.py:285-305`); `dt` is the dtype of `X`. -/
noncomputable def nmfFitTransform {d : Nat} (e : Nmf.Solvers d)
    (nnreg : List (Fin d → ℝ) → (Fin d → ℝ) → List ℝ) (s : Nmf.Est d) (dt : Nmf.DT)
    (X : List (Fin d → ℝ)) : Except PyErr (List (List ℝ)) :=
  match Nmf.fit e s X with
  | .error err => .error err
  | .ok s => Nmf.transform nnreg s dt X

end Verif.Transform
