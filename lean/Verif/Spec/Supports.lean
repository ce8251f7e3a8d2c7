import Mathlib.Data.Finset.Card
import Mathlib.Data.Finset.Range
import Verif.Spec.Fit
/-!
The candidate supports of a fit in terms of the fits of the selection solver.
-/
namespace Verif.Spec.Supports
open Verif.Py Verif.Fit

variable {K G S M RP : Type}

/-- Fitting the selection solver for one parameter after the other on the rows `train`, starting in state
    `s`: the coefficients after each fit. -/
inductive Sweeps (env : Env K G S M RP) (train : List Nat) : S → List RP → List (List K) → Prop
  | nil (s : S) : Sweeps env train s [] []
  | cons {s s' : S} {rp : RP} {rps : List RP} {rows : List (List K)} :
      env.fitSel s rp train = .ok s' → Sweeps env train s' rps rows →
      Sweeps env train s (rp :: rps) (env.selCoef s' :: rows)

/-- The solver returns one coefficient per feature and output. -/
def SelShaped (env : Env K G S M RP) : Prop :=
  ∀ s rp train s', env.fitSel s rp train = .ok s' → (env.selCoef s').length = env.nFeat * env.outDim

/-- In how many of `n` bootstraps coefficient `j` is nonzero for parameter `l`. -/
def votes [Zero K] [DecidableEq K] (coef : Nat → Nat → List K) (n l j : Nat) : Nat :=
  ((Finset.range n).filter fun b => (coef b l)[j]? ≠ some 0).card

end Verif.Spec.Supports
