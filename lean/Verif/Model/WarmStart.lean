import Verif.Model.Fit
import Verif.Py.Ext
/-!
The state of the selection solver between fits: `coef_` and `intercept_`, what the reset between
bootstraps does to them, and from where the solvers start.
-/
namespace Verif.Fit
open Verif.Py

variable {K RP : Type}

/-- The fitted attributes of `_selection_lm` that later fits can see; absent before the first fit.
    Simplification: a one-output model (a vector and a number). -/
structure LM (K : Type) where
  coef : Option (List (Ext K))
  intercept : Option (Ext K)
  deriving DecidableEq

/-- A solver that has not been fitted. -/
def LM.fresh : LM K := ⟨none, none⟩

/-- `coef_ *= 0.; intercept_ *= 0.` where the attribute exists
    (`/repo/src/pyuoi/linear_model/base.py:281-284`). -/
def LM.reset [Zero K] (s : LM K) : LM K := ⟨s.coef.map (·.map Ext.mulZero), s.intercept.map Ext.mulZero⟩

/-- The data and the numerical part of a Poisson selection model. -/
structure PoisData (K RP : Type) where
  /-- `X.shape[1]`. -/
  nFeat : Nat
  /-- The response of each row. -/
  y : Nat → K
  /-- `log(y.mean())` of some rows. -/
  logMean : List Nat → K
  /-- `StandardScaler().fit(X[rows]).scale_`, or ones without standardization. -/
  scale : List Nat → List K
  /-- The optimiser: from the start point (coefficients and intercept), the regularization and the
      rows to the new `coef_` and `intercept_`, `_post_fit` included. -/
  solve : List (Ext K) × Ext K → RP → List Nat → Except PyErr (List (Ext K) × Ext K)

/-- The start point with `warm_start=True`, `fit_intercept=True`: the previous solution in
    standardized units if there is one, else zeros
    (`/repo/src/pyuoi/linear_model/poisson.py:93-106,207-222`). -/
def PoisData.start [Zero K] [Mul K] (d : PoisData K RP) (s : LM K) (rows : List Nat) :
    List (Ext K) × Ext K :=
  (match s.coef with
    | some c => List.zipWith (fun x sc => Ext.scale sc x) c (d.scale rows)
    | none => List.replicate d.nFeat (.fin 0),
   match s.intercept with
    | some i => i
    | none => .fin 0)

/-- `Poisson.fit` (`poisson.py:66-142`) with `fit_intercept=True`, `warm_start=True`: a constant
    response gives zero coefficients and the log of the constant (`-inf` for zero) as intercept,
    anything else runs the optimiser from the start point. -/
def PoisData.fit [Zero K] [Mul K] [DecidableEq K] (d : PoisData K RP) (s : LM K) (rp : RP)
    (rows : List Nat) : Except PyErr (LM K) :=
  if (rows.map d.y).dedup.length = 1 then
    .ok ⟨some (List.replicate d.nFeat (.fin 0)),
      some (if (rows.map d.y).any (· ≠ 0) then .fin (d.logMean rows) else .ninf)⟩
  else
    match d.solve (d.start s rows) rp rows with
    | .error e => .error e
    | .ok (c, i) => .ok ⟨some c, some i⟩

/-- An estimator whose selection solver is `d` (only what the selection loop uses is filled in
    from `d`; the rest is taken from `base`). -/
def PoisData.env [Zero K] [Mul K] [DecidableEq K] {G M : Type} (d : PoisData K RP)
    (base : Env (Ext K) G (LM K) M RP) : Env (Ext K) G (LM K) M RP :=
  { base with
    nFeat := d.nFeat
    outDim := 1
    fitSel := d.fit
    selCoef := fun s => s.coef.getD []
    reset := LM.reset }

end Verif.Fit
