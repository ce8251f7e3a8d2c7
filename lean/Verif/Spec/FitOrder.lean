import Mathlib.Data.List.OfFn
import Mathlib.Logic.Equiv.Defs
import Verif.Spec.Supports
/-!
Specification of what it means that two fits are of the same data up to the order of the features.
-/
namespace Verif.Spec.FitOrder
open Verif.Py Verif.Fit Verif.Spec.Fit

variable {K G S M S' M' RP : Type}

/-- A set of features after reordering: position `j` of the new order is feature `π j` of the old one. -/
def maskOf {p : Nat} (π : Equiv.Perm (Fin p)) (mask : List Bool) : List Bool :=
  List.ofFn fun j : Fin p => mask.getD (π j) false

/-- Two arrays whose last axis runs over the features, in the two orders. -/
def Reordered {p : Nat} (π : Equiv.Perm (Fin p)) (c c' : NDArr K) : Prop :=
  c'.shape = c.shape ∧ ∀ idx, ∀ j : Fin p, ∀ x, HasAt c (idx ++ [(π j).val]) x ↔ HasAt c' (idx ++ [j.val]) x

/-- Two estimators alike except for the order of the features: the same settings and random draws, and
    solvers whose results do not depend on the order of the features they are given.

    * The selection solver may carry a state from one regularisation parameter to the next: some relation
      of the two states holds after every reset, is preserved by fitting, and implies that the
      coefficients are the same up to order.
    * A candidate support fitted and scored on a split has the same score and the same coefficients up to
      order.
    * The intercept computed from the coefficients, and the transformation of the coefficients and
      intercept at the end of the fit, do not depend on the order. -/
structure Alike [Zero K] {p : Nat} (π : Equiv.Perm (Fin p)) (env : Env K G S M RP) (env' : Env K G S' M' RP) :
    Prop where
  feat : env.nFeat = p
  feat' : env'.nFeat = p
  outDim : env'.outDim = env.outDim
  shared : env'.shared = env.shared
  glm : env'.glm = env.glm
  bootsSel : env'.nBootsSel = env.nBootsSel
  bootsEst : env'.nBootsEst = env.nBootsEst
  thresholds : env'.thresholds = env.thresholds
  regParams : env'.regParams = env.regParams
  draw : env'.draw = env.draw
  sel : ∃ R : S → S' → Prop, (∀ s s', R (env.reset s) (env'.reset s')) ∧
    ∀ s s' rp train t t', R s s' → env.fitSel s rp train = .ok t → env'.fitSel s' rp train = .ok t' →
      R t t' ∧ ∀ o < env.outDim, ∀ j : Fin p,
        (env'.selCoef t')[o * p + j]? = (env.selCoef t)[o * p + π j]?
  cand : ∀ sp mask row sc row' sc', mask.length = p → Candidate env sp mask row sc →
    Candidate env' sp (maskOf π mask) row' sc' →
    sc' = sc ∧ ∀ o < env.outDim, ∀ j : Fin p, row' o j = row o (π j)
  inter : ∀ c c' a a', Reordered π c c' → env.fitIntercept c = .ok a → env'.fitIntercept c' = .ok a' →
    a' = a
  post : ∀ c c' a r r', Reordered π c c' → env.post c a = .ok r → env'.post c' a = .ok r' →
    Reordered π r.1 r'.1 ∧ r'.2 = r.2

/-- In every estimation bootstrap one candidate support has a better score than all the others. -/
def NoTies [LT K] (n : Nat) (scores : NDArr K) : Prop :=
  ∀ b < n, ∃ i x, HasAt scores [b, i] x ∧ ∀ i' x', i' ≠ i → HasAt scores [b, i'] x' → x' < x

end Verif.Spec.FitOrder
