import Mathlib.Analysis.SpecialFunctions.Exp
import Mathlib.Algebra.BigOperators.Fin
/-! What labels drawn from a linear model of the classes are. -/
namespace Verif.Spec.MakeClassification

/-- The linear predictors of one sample, one for each row of the coefficients. -/
noncomputable def predictors (n : Nat) (coef : List (List ℝ)) (intercept x : List ℝ) : List ℝ :=
  List.zipWith (fun w c => c + ∑ j : Fin n, x.getD j 0 * w.getD j 0) coef intercept

/-- The probabilities are proportional to the exponentials of the predictors. -/
def Softmax (p l : List ℝ) : Prop :=
  p.length = l.length ∧ ∀ (j : Nat) (v : ℝ), l[j]? = some v → p[j]? = some (Real.exp v / (l.map Real.exp).sum)

/-- One trial among `q` classes with result `j`. -/
def OneHot (q : Nat) (v : List Nat) (j : Nat) : Prop :=
  v.length = q ∧ j < q ∧ ∀ i < q, v[i]? = some (if i = j then 1 else 0)

/-- The labels are drawn one after the other, each from the state of the generator that the one before left behind. -/
def InTurn {α σ : Type} (draw : α → σ → Nat → σ → Prop) (items : List α) (labels : List Nat) : Prop :=
  ∃ st : Nat → σ, labels.length = items.length ∧
    ∀ i a y, items[i]? = some a → labels[i]? = some y → draw a (st i) y (st (i + 1))

end Verif.Spec.MakeClassification
