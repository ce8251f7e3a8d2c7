import Verif.Model.LbfgsObj
import Mathlib.Data.Rat.Defs
/-!
Specification of an object with settings (C126): what is read from an attribute is the last value that was
accepted for it.
-/
namespace Verif.Lbfgs.Spec
open Verif.Lbfgs

/-- The attributes that hold a C integer. -/
def intAttrs : List Attr :=
  [.m, .past, .maxIterations, .maxLinesearch, .orthantwiseStart, .orthantwiseEnd]

/-- The value fits into 32 bits. -/
def Fits (z : Int) : Prop := -2 ^ 31 ≤ z ∧ z < 2 ^ 31

instance (z : Int) : Decidable (Fits z) := inferInstanceAs (Decidable (_ ∧ _))

/-- Assigning the second argument to the attribute is accepted, and the third is then read from it. -/
inductive Reads {F : Type} (cv : Conv F) : Attr → PyVal F → PyVal F → Prop where
  | int {a : Attr} {z : Int} : a ∈ intAttrs → Fits z → Reads cv a (.int z) (.int z)
  | rounded {a : Attr} {x : F} {z : Int} : a ∈ intAttrs → cv.toInt x = .ok z → Fits z →
      Reads cv a (.flt x) (.int z)
  | float {a : Attr} {x : F} : a ∉ intAttrs → a ≠ .linesearch → Reads cv a (.flt x) (.flt x)
  | widened {a : Attr} {z : Int} {x : F} : a ∉ intAttrs → a ≠ .linesearch → cv.ofInt z = .ok x →
      Reads cv a (.int z) (.flt x)
  | search {s : String} {z : Int} :
      (s, z) ∈ [("default", 0), ("morethuente", 0), ("armijo", 1), ("wolfe", 2), ("strongwolfe", 3)] →
      Reads cv .linesearch (.str s) (.int z)

/-- The default values in the comments of `liblbfgs/lbfgs.h` (lines 205, 216, 225, 237, 246, 261, 267, 276, 285,
    296, 303, 331, 347). -/
def headerDefaults : List (Attr × PyVal ℚ) := [
  (.m, .int 6), (.epsilon, .flt (1 / 10 ^ 5)), (.past, .int 0), (.delta, .flt 0), (.maxIterations, .int 0),
  (.maxLinesearch, .int 20), (.minStep, .flt (1 / 10 ^ 20)), (.maxStep, .flt (10 ^ 20)), (.ftol, .flt (1 / 10 ^ 4)),
  (.wolfe, .flt (9 / 10)), (.gtol, .flt (9 / 10)), (.orthantwiseC, .flt 0), (.orthantwiseStart, .int 0)]

/-- The value of an attribute after assignments in this order: that of the last accepted assignment to it,
    and the initial one if none was accepted. -/
def LastAccepted {F : Type} (cv : Conv F) (init : Attr → PyVal F) (l : List (Attr × PyVal F)) (a : Attr)
    (w : PyVal F) : Prop :=
  (∃ before v after, l = before ++ (a, v) :: after ∧ Reads cv a v w ∧
    ∀ v', (a, v') ∈ after → ∀ w', ¬ Reads cv a v' w') ∨
  ((∀ v', (a, v') ∈ l → ∀ w', ¬ Reads cv a v' w') ∧ w = init a)

/-- The assignments among the actions on an object. -/
def assignments {σ F : Type} : List (Event σ F) → List (Attr × PyVal F)
  | [] => []
  | .set a v :: l => (a, v) :: assignments l
  | .minimize _ _ _ :: l => assignments l

/-- Two results with the same numbers in the same order. -/
inductive SameNumbers {F : Type} : ResArr F → ResArr F → Prop where
  | returned {s t : List Nat} {h : s.prod = t.prod} {x : Vec s.prod F} {w : Option String} :
      SameNumbers (.returned ⟨s, x⟩ w) (.returned ⟨t, fun i => x (Fin.cast h.symm i)⟩ w)
  | raised {e : PyErr} {msg : Option String} : SameNumbers (.raised e msg) (.raised e msg)

/-- Callables that do on arrays of the second shape what others do on arrays of the first shape with the
    same numbers. -/
structure Reshaped {σ F : Type} (s t : List Nat) (h : s.prod = t.prod) (fs gs : Funs σ F) : Prop where
  callable : gs.f.callable = fs.f.callable
  type : gs.f.type = fs.f.type
  value : ∀ x : Vec s.prod F, (gs.f.call ⟨t, fun i => x (Fin.cast h.symm i)⟩).1 = (fs.f.call ⟨s, x⟩).1
  gradient : ∀ (x : Vec s.prod F) (i : Fin s.prod),
    (gs.f.call ⟨t, fun i => x (Fin.cast h.symm i)⟩).2 (Fin.cast h i) = (fs.f.call ⟨s, x⟩).2 i
  without : fs.progress = none → gs.progress = none
  progress : ∀ pr, fs.progress = some pr → ∃ pr', gs.progress = some pr' ∧ pr'.callable = pr.callable ∧
    pr'.truthy = pr.truthy ∧ ∀ (st : σ) (x g : Vec s.prod F) (fx xn gn step : F) (k : Nat) (ls : Int),
      pr'.call st ⟨t, fun i => x (Fin.cast h.symm i)⟩ ⟨t, fun i => g (Fin.cast h.symm i)⟩ fx xn gn step k ls
        = pr.call st ⟨s, x⟩ ⟨s, g⟩ fx xn gn step k ls

/-- The defaults named in the documentation of `fmin_lbfgs` (`lbfgs/__init__.py:41-167`). -/
def documentedDefaults : List (String × String) := [
  ("orthantwise_c", "0"), ("orthantwise_start", "0"), ("orthantwise_end", "-1"), ("m", "6"),
  ("epsilon", "1e-5"), ("past", "0"), ("delta", "0."), ("max_iterations", "0"),
  ("line_search", "default"), ("max_linesearch", "20"), ("min_step", "1e-20"), ("max_step", "1e+20"),
  ("ftol", "1e-4"), ("wolfe", "0.9"), ("gtol", "0.9"), ("xtol", "1e-30")]

end Verif.Lbfgs.Spec
