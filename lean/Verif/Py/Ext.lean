import Mathlib.Algebra.Field.Defs
/-! Floating point numbers with their special values; finite values are ideal. -/
namespace Verif.Py

/-- A float: a finite number, NaN or an infinity.  Simplification: finite arithmetic is exact, so
    it does not overflow, and zeros have no sign. -/
inductive Ext (K : Type) where
  | fin (x : K)
  | nan
  | pinf
  | ninf
  deriving DecidableEq, Repr

namespace Ext
variable {K : Type}

/-- `x * 0.` (IEEE): infinity times zero is NaN. -/
def mulZero [Zero K] : Ext K → Ext K
  | fin _ => fin 0
  | _ => nan

/-- Multiplication by a positive finite number. -/
def scale [Mul K] (c : K) : Ext K → Ext K
  | fin x => fin (x * c)
  | x => x

/-- Neither NaN nor infinite. -/
def IsFin : Ext K → Prop
  | fin _ => True
  | _ => False

end Ext
end Verif.Py
