import Mathlib.Data.List.Basic
import Mathlib.Data.Rat.Defs
import Mathlib.Analysis.SpecialFunctions.Log.Basic
/-!
What the labels of a classifier should mean.
-/
namespace Verif.Labels.Spec

/-- The mean log-probability that a candidate gives to the classes of the samples: classes as positions,
    one row of probabilities per sample. -/
noncomputable def meanLogProb (y : List Nat) (pr : List (List ℝ)) : ℝ :=
  (List.zipWith (fun c (r : List ℝ) => Real.log (r.getD c 0)) y pr).sum / y.length

/-- One row of probabilities per sample, one entry per class. -/
def Table (k : Nat) (y : List Nat) (pr : List (List ℝ)) : Prop :=
  pr.length = y.length ∧ (∀ r ∈ pr, r.length = k) ∧ ∀ c ∈ y, c < k

/-- The weight of a label in a dictionary of class weights; one if it is not mentioned. -/
def weightOf {L : Type} [BEq L] (d : List (L × ℚ)) (l : L) : ℚ := (d.lookup l).getD 1

/-- The weights of the samples: those of the caller times those of the labels. -/
def dictSampleWeights {L : Type} [BEq L] (d : List (L × ℚ)) (sw : List ℚ) (y : List L) : List ℚ :=
  List.zipWith (fun s l => s * weightOf d l) sw y

/-- The total weight of the samples with a label. -/
def totalWeight {L : Type} [BEq L] (l : L) (y : List L) (w : List ℚ) : ℚ :=
  (List.zipWith (fun c v => if c == l then v else 0) y w).sum

end Verif.Labels.Spec
