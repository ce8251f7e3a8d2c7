import Mathlib.Data.Rat.Defs
import Mathlib.Algebra.Order.Field.Rat
import Verif.Py.Ext
/-!
Floating-point numbers without rounding: rationals, NaN and the two infinities, with the IEEE rules for
operations and comparisons.  Simplifications: no rounding, one zero, no overflow of finite results.
Models C's `double` in `/repo/liblbfgs/lbfgs.c`.
-/
namespace Verif.Py

/-- `double` (`liblbfgs/lbfgs.h:50-60`) without rounding. -/
abbrev Flt := Ext ℚ

namespace Flt

/-- Addition (`liblbfgs/arithmetic_ansi.h:78-121`). -/
def add : Flt → Flt → Flt
  | .fin a, .fin b => .fin (a + b)
  | .nan, _ => .nan
  | _, .nan => .nan
  | .pinf, .ninf => .nan
  | .ninf, .pinf => .nan
  | .pinf, _ => .pinf
  | _, .pinf => .pinf
  | .ninf, _ => .ninf
  | _, .ninf => .ninf

/-- Negation (`liblbfgs/arithmetic_ansi.h:66-76`). -/
def neg : Flt → Flt
  | .fin a => .fin (-a)
  | .nan => .nan
  | .pinf => .ninf
  | .ninf => .pinf

/-- An infinity with the sign of a finite number; zero gives NaN. -/
def infOf (a : ℚ) (pos : Bool) : Flt :=
  if a = 0 then .nan else if (0 < a) = (pos = true) then .pinf else .ninf

/-- Multiplication (`liblbfgs/arithmetic_ansi.h:78-121`). -/
def mul : Flt → Flt → Flt
  | .fin a, .fin b => .fin (a * b)
  | .nan, _ => .nan
  | _, .nan => .nan
  | .fin a, .pinf => infOf a true
  | .fin a, .ninf => infOf a false
  | .pinf, .fin a => infOf a true
  | .ninf, .fin a => infOf a false
  | .pinf, .pinf => .pinf
  | .pinf, .ninf => .ninf
  | .ninf, .pinf => .ninf
  | .ninf, .ninf => .pinf

/-- Division (`liblbfgs/lbfgs.c:450`, `581`). -/
def div : Flt → Flt → Flt
  | .fin a, .fin b => if b = 0 then infOf a true else .fin (a / b)
  | .nan, _ => .nan
  | _, .nan => .nan
  | .fin _, .pinf => .fin 0
  | .fin _, .ninf => .fin 0
  | .pinf, .fin a => if a < 0 then .ninf else .pinf
  | .ninf, .fin a => if a < 0 then .pinf else .ninf
  | _, _ => .nan

/-- `<`: false if one side is NaN (`liblbfgs/lbfgs.c:449`). -/
def lt : Flt → Flt → Bool
  | .fin a, .fin b => a < b
  | .nan, _ => false
  | _, .nan => false
  | .ninf, .ninf => false
  | .ninf, _ => true
  | _, .ninf => false
  | .pinf, _ => false
  | _, .pinf => true

/-- `<=`: false if one side is NaN (`liblbfgs/lbfgs.c:450`). -/
def le : Flt → Flt → Bool
  | .fin a, .fin b => a ≤ b
  | .nan, _ => false
  | _, .nan => false
  | .ninf, _ => true
  | _, .pinf => true
  | _, _ => false

instance : Zero Flt := ⟨.fin 0⟩
instance : One Flt := ⟨.fin 1⟩
instance : Add Flt := ⟨add⟩
instance : Neg Flt := ⟨neg⟩
instance : Sub Flt := ⟨fun a b => add a (neg b)⟩
instance : Mul Flt := ⟨mul⟩
instance : Div Flt := ⟨div⟩
instance : NatCast Flt := ⟨fun n => .fin n⟩
instance : LT Flt := ⟨fun a b => lt a b = true⟩
instance : LE Flt := ⟨fun a b => le a b = true⟩
instance : DecidableLT Flt := fun a b => inferInstanceAs (Decidable (lt a b = true))
instance : DecidableLE Flt := fun a b => inferInstanceAs (Decidable (le a b = true))

end Flt
end Verif.Py
