import Mathlib.Analysis.SpecialFunctions.Log.Basic
import Verif.Spec.Recovery
/-!
Specification of the choice of a candidate by an information criterion.
-/
namespace Verif.Spec.InfoChoice
open Verif.Spec.Recovery

variable {n p m : Nat}

/-- The criteria that can be asked for. -/
def Known (metric : String) : Prop := metric = "BIC" ∨ metric = "AIC" ∨ metric = "AICc"

/-- The sum of the squared errors. -/
def rss (y q : Fin m → ℝ) : ℝ := ∑ i, (y i - q i) * (y i - q i)

/-- The price of `k` features with `m` rows: two per feature (AIC); the logarithm of the number of rows per
    feature (BIC); two per feature and `2 k (k + 1) / (m - k - 1)` where that is positive (AICc). -/
noncomputable def price (metric : String) (k m : Nat) : ℝ :=
  if metric = "AIC" then 2 * k
  else if metric = "BIC" then k * Real.log m
  else if k + 1 < m then 2 * k + 2 * (k * (k + 1)) / (m - (k + 1)) else 2 * k

/-- What is traded off: `m log (rss / m)` and the price of the features. -/
noncomputable def cost (metric : String) (y : Fin m → ℝ) (c : (Fin m → ℝ) × Nat) : ℝ :=
  m * Real.log (rss y c.1 / m) + price metric c.2 m

/-- `i` is the first of the candidates with the least cost. -/
def IsFirstCheapest (metric : String) (y : Fin m → ℝ) (cands : List ((Fin m → ℝ) × Nat)) (i : Nat) : Prop :=
  ∃ c, cands[i]? = some c ∧ (∀ d ∈ cands, cost metric y c ≤ cost metric y d) ∧
    ∀ j < i, ∀ d, cands[j]? = some d → cost metric y c < cost metric y d

/-- The training rows allow recovery: some candidate holds all features of the truth, every candidate is
    told apart from the truth, and the response varies. -/
structure GoodTrain (fi : Bool) (X : Fin n → Fin p → ℝ) (y : Fin n → ℝ) (beta : Fin p → ℝ)
    (supports : List (Fin p → Bool)) (train : List (Fin n)) : Prop where
  complete : ∃ S ∈ supports, ∀ j, beta j ≠ 0 → S j = true
  separated : ∀ S ∈ supports, Determines fi X train (fun j => S j = true ∨ beta j ≠ 0)
  varies : ∃ i ∈ train, ∃ i' ∈ train, y i ≠ y i'

end Verif.Spec.InfoChoice
