/-!
Exceptions of the modelled Python/Cython code, as values.
-/
namespace Verif

/-- The Python exception classes that the modelled code can raise.
    Simplification: messages and tracebacks are dropped; NumPy's `AxisError` is a
    `ValueError` (it subclasses it). -/
inductive PyErr where
  | valueError
  | typeError
  | keyError
  | indexError
  | attributeError
  | overflowError
  | notFitted
  | assertionError
  | zeroDivision
  | memoryError
  | lbfgsError
  | allZeroLbfgs
  | mpiError
  | unboundLocal
  | importError
  deriving DecidableEq, Repr

end Verif
