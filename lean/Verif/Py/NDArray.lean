import Mathlib.Data.List.Basic
/-!
NumPy arrays as they appear in `mpi_utils.py` and `base.py`: a shape, a dtype and the contents in
C order.
-/
namespace Verif.Py

/-- The dtypes that `/repo/src/pyuoi/mpi_utils.py:9-12` distinguishes: the four keys of
    `_np2mpi`, booleans (which are not a key) and everything else. -/
inductive DType where
  | f32 | f64 | int | intc | bool | other
  deriving DecidableEq, Repr

/-- Array elements: integers, floating point numbers (ideal, of type `K`), or uninitialised
    memory left by `np.empty`. -/
inductive Scalar (K : Type) where
  | i (z : Int)
  | f (x : K)
  | undef
  deriving DecidableEq, Repr

/-- A NumPy array: shape, dtype and elements in C order. -/
structure NDArr (K : Type) where
  shape : List Nat
  dtype : DType
  data : List (Scalar K)
  deriving DecidableEq, Repr

/-- Number of elements of a shape (`np.prod(shape)`). -/
def shapeSize (shape : List Nat) : Nat := shape.foldr (· * ·) 1

namespace NDArr
variable {K : Type}

/-- An array whose contents match its shape. -/
def WF (a : NDArr K) : Prop := a.data.length = shapeSize a.shape

instance (a : NDArr K) : Decidable a.WF := inferInstanceAs (Decidable (_ = _))

/-- `np.empty(shape, dtype)`: uninitialised contents. -/
def empty (shape : List Nat) (dtype : DType) : NDArr K :=
  ⟨shape, dtype, List.replicate (shapeSize shape) .undef⟩

/-- `np.ascontiguousarray(X)` (used at `mpi_utils.py:35`): same contents, but NumPy guarantees at
    least one dimension, so a 0-d array becomes one of shape `(1,)`. -/
def ascontiguous (a : NDArr K) : NDArr K :=
  match a.shape with
  | [] => { a with shape := [1] }
  | _ => a

/-- A 1-d integer array from a list of row indices (`np.arange(n)[...]`, dtype `int`). -/
def ofNats (xs : List Nat) : NDArr K := ⟨[xs.length], .int, xs.map fun n : Nat => .i (n : Int)⟩

/-- Reading a 1-d integer array back as row indices. -/
def toNats (a : NDArr K) : List Nat :=
  a.data.map fun
    | .i z => z.toNat
    | _ => 0

/-- A 1-d float array. -/
def ofFloats (xs : List K) : NDArr K := ⟨[xs.length], .f64, xs.map .f⟩

end NDArr
end Verif.Py
