import Verif.Model.Fit
/-!
How `fit` hands rows of the data set to solvers and scores.
-/
namespace Verif.Fit
open Verif.Py

variable {K G S M RP Row : Type}

/-- Solvers and scores as functions of the rows they are given (a row is a row of `X` together with
    its entry of `y`). -/
structure Raw (Row K S M RP : Type) where
  fitSel : S → RP → List Row → Except PyErr S
  fitEst : List Bool → List Row → Except PyErr M
  score : M → List Bool → List Row → Except PyErr K
  fitEmpty : List Row → Except PyErr M
  scoreEmpty : M → List Row → Except PyErr K
  /-- `_estimation_target`: `True` for the test rows (1), `False` for the training rows (0)
      (`/repo/src/pyuoi/linear_model/base.py:496-536,674-715`). -/
  test : Bool

/-- `boot_idxs[self._estimation_target]` (`base.py:618-619,775-776`). -/
def Raw.target (raw : Raw Row K S M RP) (sp : Split) : List Nat :=
  if raw.test then sp.test else sp.train

/-- The estimator on the data set `D`: solvers get `X[idxs_train], y[idxs_train]`
    (`base.py:287-289,369-371`), scores get the rows of the estimation target
    (`base.py:618-619,775-776`; for the intercept-only candidate `X` is replaced by zeros,
    `base.py:392-401`, so only `y` matters, which `scoreEmpty` may use). -/
def Raw.env (raw : Raw Row K S M RP) (base : Env K G S M RP) (D : Nat → Row) : Env K G S M RP :=
  { base with
    fitSel := fun s rp tr => raw.fitSel s rp (tr.map D)
    fitEst := fun mask tr => raw.fitEst mask (tr.map D)
    score := fun m mask sp => raw.score m mask ((raw.target sp).map D)
    fitEmpty := fun tr => raw.fitEmpty (tr.map D)
    scoreEmpty := fun m sp => raw.scoreEmpty m ((raw.target sp).map D) }

end Verif.Fit
