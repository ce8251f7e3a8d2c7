import Mathlib.Algebra.Order.Field.Basic
import Mathlib.Algebra.BigOperators.Fin
/-!
Specification of the recovery of noise-free linear data.
-/
namespace Verif.Spec.Recovery

variable {K : Type} {n p : Nat}

/-- The value of an affine function. -/
def affine [Field K] (w : Fin p → K) (c : K) (x : Fin p → K) : K := (∑ j, w j * x j) + c

/-- The sum of the squared errors on some rows. -/
def sse [Field K] (X : Fin n → Fin p → K) (y : Fin n → K) (rows : List (Fin n)) (w : Fin p → K) (c : K) :
    K := (rows.map fun i => (y i - affine w c (X i)) ^ 2).sum

/-- Coefficients that vanish outside a support, with an intercept only where one is allowed. -/
def Admissible [Field K] (fi : Bool) (S : Fin p → Bool) (w : Fin p → K) (c : K) : Prop :=
  (∀ j, S j = false → w j = 0) ∧ (fi = false → c = 0)

/-- `(w, c)` is a least squares fit. -/
def IsLeastSquares [LinearOrder K] [Field K] (fi : Bool) (X : Fin n → Fin p → K) (y : Fin n → K)
    (rows : List (Fin n)) (S : Fin p → Bool) (w : Fin p → K) (c : K) : Prop :=
  Admissible fi S w c ∧ ∀ w' c', Admissible fi S w' c' → sse X y rows w c ≤ sse X y rows w' c'

/-- The fit of a candidate support: least squares, or the mean response if there are no features. -/
def IsFit [LinearOrder K] [Field K] (fi : Bool) (X : Fin n → Fin p → K) (y : Fin n → K)
    (rows : List (Fin n)) (S : Fin p → Bool) (w : Fin p → K) (c : K) : Prop :=
  ((∃ j, S j = true) → IsLeastSquares fi X y rows S w c) ∧
  ((∀ j, S j = false) → (∀ j, w j = 0) ∧ rows.length * c = (rows.map y).sum)

/-- On the rows, different affine functions of the features in `T` are told apart. -/
def Determines [Field K] (fi : Bool) (X : Fin n → Fin p → K) (rows : List (Fin n)) (T : Fin p → Prop) :
    Prop :=
  ∀ (d : Fin p → K) (e : K), (∀ j, ¬ T j → d j = 0) → (fi = false → e = 0) →
    (∀ i ∈ rows, affine d e (X i) = 0) → (∀ j, d j = 0) ∧ e = 0

/-- Training and test rows allow recovery: some candidate holds all features of the truth and is
    determined on the training rows; every candidate is told apart from the truth on the test rows; and
    the response varies there. -/
structure Good [Field K] (fi : Bool) (X : Fin n → Fin p → K) (y : Fin n → K) (beta : Fin p → K)
    (supports : List (Fin p → Bool)) (train test : List (Fin n)) : Prop where
  complete : ∃ S ∈ supports, (∀ j, beta j ≠ 0 → S j = true) ∧
    Determines fi X train (fun j => S j = true)
  separated : ∀ S ∈ supports, Determines fi X test (fun j => S j = true ∨ beta j ≠ 0)
  varies : ∃ i ∈ test, ∃ i' ∈ test, y i ≠ y i'

end Verif.Spec.Recovery
