import Verif.Model.Poisson
import Verif.Model.PoissonFloat
/-! What is expected of a Poisson fit in floating point: finite results, those of exact arithmetic. -/
namespace Verif.Spec.PoissonFloat
open Verif.Py Verif.Poisson

variable {n p : Nat}

/-- The iterates of coordinate descent in exact arithmetic from zero: the first iteration visits every feature, later
    ones those with nonzero coefficients. -/
noncomputable def iter (pen : Pen) (X : Fin n → Fin p → ℝ) (y : Fin n → ℝ) : Nat → (Fin p → ℝ) × ℝ
  | 0 => (fun _ => 0, 0)
  | m + 1 =>
    let s := iter pen X y m
    let wz := adjustedResponse X y s.1 s.2
    cdSweep pen X wz.1 wz.2 (if m = 0 then List.finRange p else nonzeros s.1) s.1

/-- Iteration `m` changes every coefficient by less than the tolerance. -/
def Stops (tol : ℝ) (it : Nat → (Fin p → ℝ) × ℝ) (m : Nat) : Prop := ∀ j, |(it m).1 j - (it (m + 1)).1 j| < tol

/-- The linear predictor of a row. -/
def predictor (X : Fin n → Fin p → ℝ) (s : (Fin p → ℝ) × ℝ) (i : Fin n) : ℝ := s.2 + ∑ j, X i j * s.1 j

/-- `exp` neither overflows nor underflows at the linear predictors. -/
def InRange (lo hi : ℝ) (X : Fin n → Fin p → ℝ) (s : (Fin p → ℝ) × ℝ) : Prop :=
  ∀ i, lo ≤ predictor X s i ∧ predictor X s i ≤ hi

/-- Every feature has a nonzero value, unless there is a ridge penalty. -/
def Curved (pen : Pen) (X : Fin n → Fin p → ℝ) : Prop :=
  0 ≤ pen.alpha * (1 - pen.l1) ∧ ∀ j, (∃ i, X i j ≠ 0) ∨ 0 < pen.alpha * (1 - pen.l1)

/-- A result of which every number is finite. -/
def FiniteFit (r : Except PyErr ((Fin p → Ext ℝ) × Ext ℝ × Bool)) : Prop :=
  ∃ c b v, r = .ok (c, b, v) ∧ b.IsFin ∧ ∀ j, (c j).IsFin

/-- A result in exact arithmetic as floating point numbers. -/
def asFloats (r : Except PyErr ((Fin p → ℝ) × ℝ × Bool)) : Except PyErr ((Fin p → Ext ℝ) × Ext ℝ × Bool) :=
  r.map fun x => (fun j => .fin (x.1 j), .fin x.2.1, x.2.2)

end Verif.Spec.PoissonFloat
