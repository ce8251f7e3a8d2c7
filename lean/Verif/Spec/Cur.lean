import Mathlib.Data.List.Sort
import Mathlib.Algebra.BigOperators.Fin
import Verif.Py.Ext
import Verif.Model.Cur
/-!
What the column selection and the CUR decomposition promise, written without their code.
-/
namespace Verif.Spec.Cur
open Verif.Py

variable {K : Type} [Field K] [LinearOrder K]

/-- Share of column `i` in the leverage of the first `k` singular vectors. -/
def share {d : Nat} (V : Fin d → Nat → K) (k : Nat) (i : Fin d) : K :=
  (∑ l ∈ Finset.range k, V i l ^ 2) / k

/-- Column `i` is drawn for `c` expected columns: its uniform number is below one and below `c` times
    its share.  With infinitely many expected columns every column is drawn. -/
def Drawn {d : Nat} (V : Fin d → Nat → K) (k : Nat) (c : Ext K) (u : Nat → K) (i : Fin d) : Prop :=
  match c with
  | .fin c => u i < 1 ∧ u i < c * share V k i
  | .pinf => u i < 1
  | _ => False

instance {d : Nat} (V : Fin d → Nat → K) (k : Nat) (c : Ext K) (u : Nat → K) (i : Fin d) :
    Decidable (Drawn V k c u i) := by unfold Drawn; cases c <;> infer_instance

/-- A number drawn by `rand()`. -/
def Uniform (u : Nat → K) : Prop := ∀ i, 0 ≤ u i ∧ u i < 1

/-- What `np.argsort` promises: a reordering of the positions that sorts the keys. -/
def Argsort (f : List K → List Nat) : Prop :=
  ∀ l, (f l).Perm (List.range l.length) ∧ ((f l).map fun j => l.getD j 0).Pairwise (· ≤ ·)

/-- The sub-matrix of the given columns. -/
def columnsOf {d : Nat} (X : List (Fin d → K)) (idx : List (Fin d)) : List (List K) :=
  X.map fun r => idx.map r

/-- The ranks an argument stands for. -/
inductive RanksOf (maxK : Int) : Cur.KsArg K → List Int → Prop where
  | all : RanksOf maxK .none ((List.range maxK.toNat).map fun i : Nat => (i : Int) + 1)
  | one (z : Int) : RanksOf maxK (.int z) [z]
  | list (l : List Int) : l ≠ [] → RanksOf maxK (.list (.ints l)) l
  | array (s : List Nat) (l : List Int) : s = [l.length] → RanksOf maxK (.arr s (.ints l)) l

/-- The numbers of columns an argument stands for, given the ranks. -/
inductive CountsOf (ks : List Int) : Cur.CsArg K → List (Ext K) → Prop where
  | default : CountsOf ks .none (ks.map fun k : Int => .fin ((k + 20 : Int) : K))
  | int (z : Int) : CountsOf ks (.int z) (ks.map fun _ => .fin z)
  | bool (b : Bool) : CountsOf ks (.bool b) (ks.map fun _ => .fin (if b then 1 else 0))
  | float (x : Ext K) : CountsOf ks (.float x) (ks.map fun _ => x)
  | ints (l : List Int) : CountsOf ks (.list (.ints l)) (l.map fun c : Int => .fin c)
  | floats (l : List (Ext K)) : CountsOf ks (.list (.floats l)) l
  | arrInts (s : List Nat) (l : List Int) : CountsOf ks (.arr s (.ints l)) (l.map fun c : Int => .fin c)
  | arrFloats (s : List Nat) (l : List (Ext K)) : CountsOf ks (.arr s (.floats l)) l

/-- An array of ranks has one axis. -/
def Flat : Cur.KsArg K → Prop
  | .arr s (.ints l) => s = [l.length]
  | _ => True

/-- A positive number, possibly infinite. -/
def Positive : Ext K → Prop
  | .fin x => 0 < x
  | .pinf => True
  | _ => False

end Verif.Spec.Cur
