import Mathlib.Topology.Order.LeftRightNhds
import Mathlib.Topology.Algebra.Order.Field
import Mathlib.Topology.Instances.Real.Lemmas
import Verif.Py.Ext
/-! What the IEEE rules for infinities mean: results of operations are limits of the operations on real numbers. -/
namespace Verif.Spec.PoissonFloatArith
open Verif.Py Filter Topology

/-- The real numbers close to a floating-point number; nothing is said of NaN. -/
def near : Ext ℝ → Filter ℝ
  | .fin a => 𝓝 a
  | .pinf => atTop
  | .ninf => atBot
  | .nan => ⊤

/-- An infinity. -/
def Inf (a : Ext ℝ) : Prop := a = .pinf ∨ a = .ninf

/-- `f` in floating point is the limit of `g`. -/
def Limit1 (f : Ext ℝ) (g : ℝ → ℝ) (a : Ext ℝ) : Prop := Tendsto g (near a) (near f)

/-- `f` in floating point is the limit of `g`. -/
def Limit2 (f : Ext ℝ) (g : ℝ → ℝ → ℝ) (a b : Ext ℝ) : Prop :=
  Tendsto (fun q : ℝ × ℝ => g q.1 q.2) (near a ×ˢ near b) (near f)

end Verif.Spec.PoissonFloatArith
