import Mathlib.MeasureTheory.Constructions.BorelSpace.Order
import Mathlib.MeasureTheory.Measure.Lebesgue.Basic
import Mathlib.MeasureTheory.Integral.Bochner.Basic
import Verif.Spec.Cur
/-!
Random draws and expected numbers of columns (C133), written without the code of the selection.
-/
namespace Verif.Spec.Cur
open MeasureTheory

/-- A random number with the uniform distribution on `[0, 1)`, as documented for `rand()`. -/
structure IsUniform {Ω : Type} [MeasurableSpace Ω] (μ : Measure Ω) (U : Ω → ℝ) : Prop where
  measurable : Measurable U
  law : μ.map U = volume.restrict (Set.Ico 0 1)

/-- The first `k` singular vectors have length one. -/
def UnitVectors {d : Nat} (V : Fin d → Nat → ℝ) (k : Nat) : Prop :=
  ∀ l < k, ∑ i, V i l ^ 2 = 1

/-- The expected length of a random list. -/
noncomputable def expectedLength {Ω : Type} [MeasurableSpace Ω] (μ : Measure Ω)
    (L : Ω → List Nat) : ℝ := ∫ ω, ((L ω).length : ℝ) ∂μ

end Verif.Spec.Cur
