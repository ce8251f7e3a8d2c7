import Verif.Py.Mpi
import Mathlib.Logic.Function.Basic
import Mathlib.Logic.Relation
/-!
Schedules: the processes of a world enter the collectives in any order, one at a time; a collective
completes once all processes are in it (the strictest synchronisation an MPI library may impose).
-/
namespace Verif.Py

/-- For each process, the rest of its program and whether it has entered the collective the program
    starts with. -/
abbrev Config (K α : Type) (n : Nat) := Fin n → Prog K α × Bool

/-- One move of the scheduler: some process enters its next collective, or a collective that all
    processes have entered (same kind, same root) completes. -/
inductive SStep {K α : Type} {n : Nat} : Config K α n → Config K α n → Prop where
  | enter {c : Config K α n} (r : Fin n) (op : Op K) (k : Obj K → Prog K α) :
      c r = (.coll op k, false) → SStep c (Function.update c r (.coll op k, true))
  | sync {c : Config K α n} (ops : Fin n → Op K) (k : Fin n → Obj K → Prog K α)
      (tag : Kind × Nat) : 0 < n → (∀ r, c r = (.coll (ops r) (k r), true)) →
      (∀ r, (ops r).tag = tag) →
      SStep c fun r => (Prog.resume (k r) (deliver ops r), false)

/-- The initial configuration. -/
def start {K α : Type} {n : Nat} (W : Fin n → Prog K α) : Config K α n := fun r => (W r, false)

/-- Configurations that some schedule can reach. -/
def Reaches {K α : Type} {n : Nat} : Config K α n → Config K α n → Prop :=
  Relation.ReflTransGen SStep

/-- Some process has raised. -/
def Raised {K α : Type} {n : Nat} (c : Config K α n) : Prop := ∃ r e, (c r).1 = .fail e

/-- All processes have returned. -/
def AllReturned {K α : Type} {n : Nat} (c : Config K α n) : Prop := ∀ r, ∃ a, (c r).1 = .ret a

end Verif.Py
