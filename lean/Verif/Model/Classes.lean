import Verif.Model.Labels
/-!
`UoI_L1Logistic` with `MaskedCoefLogisticRegression` as its two solvers, as far as the classes that occur
among the rows of a bootstrap are concerned.
-/
namespace Verif.Classes
open Verif.Py Verif.Fit Verif.Labels

/-- `y[idxs_train]` (`base.py:289,371`). -/
def rowsOf {L : Type} (y : List L) (train : List Nat) : List L := train.filterMap (y[·]?)

/-- The parameters of the fit of `Verif.Fit` are those of `UoI_L1Logistic` with labels `y`:
    `output_dim` is computed from all labels (`logistic.py:205-210`), and a fit of either solver that
    succeeds leaves as many rows in `coef_` as `logistic.py:384-399` computes from the labels of the
    bootstrap (`logistic.py:427-432`), for all features (selection, `base.py:476`; estimation with a mask,
    `base.py:381`) or for those of the support (`base.py:377`). -/
structure Uses {L K G S M RP : Type} [LinearOrder L] (multinomial : Bool) (y : List L)
    (env : Env K G S M RP) : Prop where
  dim : env.outDim = outputDim multinomial y
  sel : ∀ s rp train s', env.fitSel s rp train = .ok s' →
    ∃ r, maskedRows multinomial (uniq (rowsOf y train)).length = .ok r ∧
      (env.selCoef s').length = env.nFeat * r
  est : ∀ mask train m, env.fitEst mask train = .ok m →
    ∃ r, maskedRows multinomial (uniq (rowsOf y train)).length = .ok r ∧
      (env.estCoef m).length = (if env.shared then mask.count true else env.nFeat) * r

end Verif.Classes
