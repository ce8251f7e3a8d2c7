import Mathlib.Analysis.SpecialFunctions.Exp
import Mathlib.Algebra.BigOperators.Fin
/-!
Specification: existence of minimisers, and separation of classes.
-/
namespace Verif.Spec.LogisticMin

variable {n p k : Nat}

/-- The function has a minimiser. -/
def Attained {α : Type} (f : α → ℝ) : Prop := ∃ x, ∀ x', f x ≤ f x'

/-- The linear score of a sample. -/
def score (d : Fin p → ℝ) (e : ℝ) (x : Fin p → ℝ) : ℝ := (∑ j, d j * x j) + e

/-- Coefficients within a support, with an intercept only where one is fitted. -/
def Within (fi : Bool) (S : Fin p → Bool) (d : Fin p → ℝ) (e : ℝ) : Prop :=
  (∀ j, S j = false → d j = 0) ∧ (fi = false → e = 0)

/-- The probability of class `c`, given the scores of all classes. -/
noncomputable def classProb (eta : Fin k → ℝ) (c : Fin k) : ℝ := Real.exp (eta c) / ∑ c', Real.exp (eta c')

/-- Some scores have the sign of the label, or are zero, for every sample, and are not zero for all of them
    (labels are signs). -/
def Separable (fi : Bool) (S : Fin p → Bool) (X : Fin n → Fin p → ℝ) (s : Fin n → ℝ) : Prop :=
  ∃ d e, Within fi S d e ∧ (∀ i, 0 ≤ s i * score d e (X i)) ∧ ∃ i, 0 < s i * score d e (X i)

/-- The same for several classes: in every sample its own class has the largest score, though perhaps not
    alone, and in some sample it beats another class. -/
def SeparableM (fi : Bool) (S : Fin k → Fin p → Bool) (X : Fin n → Fin p → ℝ) (y : Fin n → Fin k) : Prop :=
  ∃ (d : Fin k → Fin p → ℝ) (e : Fin k → ℝ), (∀ c, Within fi (S c) (d c) (e c)) ∧
    (∀ i c, score (d c) (e c) (X i) ≤ score (d (y i)) (e (y i)) (X i)) ∧
    ∃ i c, score (d c) (e c) (X i) < score (d (y i)) (e (y i)) (X i)

end Verif.Spec.LogisticMin
