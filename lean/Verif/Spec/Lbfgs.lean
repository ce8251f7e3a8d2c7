import Mathlib.Algebra.Order.Field.Basic
import Mathlib.Algebra.BigOperators.Group.Finset.Basic
import Mathlib.Algebra.BigOperators.Fin
import Mathlib.Data.Fintype.BigOperators
/-!
Specifications for the minimiser: plain mathematics, independent of the model.
-/
namespace Verif.Lbfgs.Spec
open Finset

variable {n : Nat} {K : Type} [Field K] [LinearOrder K] [IsStrictOrderedRing K]

/-- The coordinates `start, ..., stop - 1` carry the L1 penalty. -/
def Penalised (start stop : Int) (i : Fin n) : Prop := start ≤ (i.val : Int) ∧ (i.val : Int) < stop

instance (start stop : Int) (i : Fin n) : Decidable (Penalised start stop i) :=
  inferInstanceAs (Decidable (_ ∧ _))

/-- `v` is a subgradient at `x` of `t ↦ F t + c |t|`, where `F` has derivative `g` at `x`: `v - g` is a
    subgradient of `c |.|`. -/
def IsSubgrad (c x g v : K) : Prop := ∀ t : K, c * |x| + (v - g) * (t - x) ≤ c * |t|

/-- Inner product. -/
def dot (x y : Fin n → K) : K := ∑ i, x i * y i

/-- The L1 penalty. -/
def l1 (start stop : Int) (x : Fin n → K) : K := ∑ i with Penalised start stop i, |x i|

/-- The objective with its L1 penalty. -/
def penalised (F : (Fin n → K) → K) (c : K) (start stop : Int) (x : Fin n → K) : K :=
  F x + c * l1 start stop x

/-- First-order optimality of `F + c * l1` at `x`, where `F` has gradient `g`. -/
def FirstOrder (c : K) (start stop : Int) (x g : Fin n → K) : Prop :=
  ∀ i, if Penalised start stop i then
      (0 < x i → g i = -c) ∧ (x i < 0 → g i = c) ∧ (x i = 0 → |g i| ≤ c)
    else g i = 0

/-- `F` is convex with gradient `G` (the gradient inequality). -/
def ConvexGrad (F : (Fin n → K) → K) (G : (Fin n → K) → Fin n → K) : Prop :=
  ∀ x y, F x + dot (G x) (fun i => y i - x i) ≤ F y

/-- `t` lies in the orthant of `x`; where `x` is zero, in the orthant of `-v`. -/
def SameOrthant (x v t : K) : Prop :=
  (0 < x → 0 ≤ t) ∧ (x < 0 → t ≤ 0) ∧ (x = 0 → (0 < v → t ≤ 0) ∧ (v < 0 → 0 ≤ t) ∧ (v = 0 → t = 0))

/-- Sufficient decrease from value `f0` to `f1` with step length `a`, initial slope `slope` and
    coefficient `ftol`. -/
def Armijo (ftol f0 slope a f1 : K) : Prop := f1 ≤ f0 + ftol * (a * slope)

/-- The curvature condition on the slopes before and after the step. -/
def Wolfe (wolfe slope0 slope1 : K) : Prop := wolfe * slope0 ≤ slope1

/-- The strong curvature condition. -/
def StrongWolfe (wolfe slope0 slope1 : K) : Prop := |slope1| ≤ wolfe * |slope0|

/-- `v` lists the objective values after 0, 1, 2, … iterations: after iteration `k` the value has changed
    by less than the fraction `delta` within the last `past` iterations. -/
def Stalled (past : Int) (delta : K) (v : List K) (k : Nat) : Prop :=
  0 < past ∧ past ≤ (k : Int) ∧
    ∃ a b, v[k - past.toNat]? = some a ∧ v[k]? = some b ∧ b ≠ 0 ∧ |a - b| < delta * |b|

end Verif.Lbfgs.Spec
