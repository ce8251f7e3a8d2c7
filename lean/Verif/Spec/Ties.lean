import Mathlib.Data.List.Basic
import Verif.Spec.Intersection
/-! Which candidate should be chosen by accuracy, and among equally good ones. -/
namespace Verif.Spec.Ties
open Verif.Intersection.Spec

/-- Number of samples whose label is predicted. -/
def correct (y p : List Nat) : Nat := ((y.zip p).filter fun q => q.1 = q.2).length

/-- `S` is the first of the candidates, in their order, with the most correct predictions. -/
def IsFirstMostCorrect (y : List Nat) (predict : List Bool → List Nat) (cands : List (List Bool)) (i : Nat) : Prop :=
  ∃ S, cands[i]? = some S ∧ (∀ T ∈ cands, correct y (predict T) ≤ correct y (predict S)) ∧
    ∀ j < i, ∀ T, cands[j]? = some T → correct y (predict T) < correct y (predict S)

/-- Number of features of a support. -/
def size (S : List Bool) : Nat := S.count true

/-- `S` is part of `T` and not all of it. -/
def Part (S T : List Bool) : Prop := Contained S T ∧ S ≠ T

end Verif.Spec.Ties
