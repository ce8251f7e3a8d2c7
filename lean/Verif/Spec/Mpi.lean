import Verif.Py.NDArray
/-! Specifications for the MPI helpers (C36, C37, C38), independent of the model. -/
namespace Verif.MpiUtils
open Verif.Py

variable {K : Type}

/-- A dtype with an MPI counterpart (`float32`, `float64`, `int`, `intc`). -/
def Supported (d : DType) : Prop := d = .f32 ∨ d = .f64 ∨ d = .int ∨ d = .intc

instance (d : DType) : Decidable (Supported d) := inferInstanceAs (Decidable (_ ∨ _))

/-- Specification of row-wise concatenation, independent of MPI: the shapes agree except for the
    first axis, whose lengths add up, and the contents follow one another. -/
def IsRowConcat (parts : List (NDArr K)) (whole : NDArr K) : Prop :=
  ∃ tail, (∀ a ∈ parts, a.shape.tail = tail ∧ a.shape ≠ [] ∧ a.dtype = whole.dtype) ∧
    whole.shape = (parts.map fun a => a.shape.headD 0).sum :: tail ∧
    whole.data = (parts.map NDArr.data).flatten

end Verif.MpiUtils
