import Verif.Model.Lbfgs
/-! Arithmetic with a NaN, whatever the other numbers and their rounding are. -/
namespace Verif.Spec.LbfgsNan
open Verif.Lbfgs

variable {n : Nat} {σ F : Type} [Zero F] [One F] [Add F] [Sub F] [Mul F] [Div F] [Neg F] [NatCast F]
  [LT F] [LE F] [DecidableLT F] [DecidableLE F]

/-- `ν` is a NaN: an operation with it gives it, and no comparison with it holds. -/
structure IsNan (ν : F) : Prop where
  add_left : ∀ a, ν + a = ν
  add_right : ∀ a, a + ν = ν
  sub_left : ∀ a, ν - a = ν
  sub_right : ∀ a, a - ν = ν
  mul_left : ∀ a, ν * a = ν
  mul_right : ∀ a, a * ν = ν
  div_left : ∀ a, ν / a = ν
  div_right : ∀ a, a / ν = ν
  neg : -ν = ν
  lt_left : ∀ a, ¬ ν < a
  lt_right : ∀ a, ¬ a < ν
  le_left : ∀ a, ¬ ν ≤ a
  le_right : ∀ a, ¬ a ≤ ν

/-- The function that is minimised: the objective, plus the L1 penalty if there is one. -/
def value (env : Env n σ F) (p : Par F) (x : Vec n F) : F :=
  if feq p.c 0 then (env.eval x).1 else (env.eval x).1 + x1norm x p.start p.stop * p.c

/-- Value and gradient at a point are NaN in every entry. -/
def Undefined (env : Env n σ F) (ν : F) (x : Vec n F) : Prop := env.eval x = (ν, fun _ => ν)

/-- The progress callable never asks to stop. -/
def NeverCancels (env : Env n σ F) : Prop := ∀ cb x g f a b c k l, (env.progress cb x g f a b c k l).1 = 0

end Verif.Spec.LbfgsNan
