import Mathlib.Algebra.Order.Field.Rat
import Mathlib.Algebra.Order.Round
import Mathlib.Data.Rat.Floor
/-! Floating-point numbers of 53 bits and rounding to nearest, with any rule for ties; exponents are not limited. -/
namespace Verif.Spec.SplitSize

/-- A number of at most 53 significant bits. -/
def Rep (y : ℚ) : Prop := ∃ m e : ℤ, |m| < 2 ^ 53 ∧ y = m * 2 ^ e

/-- Rounding to a nearest such number. -/
def Nearest (rnd : ℚ → ℚ) : Prop := ∀ x, Rep (rnd x) ∧ ∀ y, Rep y → |rnd x - x| ≤ |y - x|

end Verif.Spec.SplitSize
