import Verif.Py.Mpi
/-!
Model of `/repo/src/pyuoi/mpi_utils.py`: every function, as the program that one process runs.
-/
namespace Verif.MpiUtils
open Verif.Py

variable {K : Type}

/-- `check_valid_ndarray` (`mpi_utils.py:17-35`). -/
def checkValid : Obj K → Except PyErr (Option (NDArr K))
  | .none => .ok none
  | .arr a => .ok (some a.ascontiguous)
  | _ => .error .valueError

/-- `_np2mpi[dtype]` (`mpi_utils.py:9-12`): `KeyError` for a dtype without MPI counterpart. -/
def np2mpi : DType → Except PyErr DType
  | .f32 => .ok .f32
  | .f64 => .ok .f64
  | .int => .ok .int
  | .intc => .ok .intc
  | .bool => .error .keyError
  | .other => .error .keyError

/-- `np.empty(shape, dtype)` for broadcast values: `None` is NumPy's alias for `()` as a shape and
    for `float64` as a dtype (`mpi_utils.py:85-86,124`). -/
def npEmpty : Obj K → Obj K → Except PyErr (NDArr K)
  | .shape s, .dtype d => .ok (NDArr.empty s d)
  | .none, .none => .ok (NDArr.empty [] .f64)
  | .shape s, .none => .ok (NDArr.empty s .f64)
  | .none, .dtype d => .ok (NDArr.empty [] d)
  | _, _ => .error .typeError

/-- `np.dtype(x)` for a broadcast value (`mpi_utils.py:125`): `None` means `float64`. -/
def npDtype : Obj K → Except PyErr DType
  | .dtype d => .ok d
  | .none => .ok .f64
  | _ => .error .typeError

/-- An array delivered by a collective. -/
def asArr : Obj K → Except PyErr (NDArr K)
  | .arr a => .ok a
  | _ => .error .typeError

/-- `Bcast_from_root(send, comm, root)` on process `rank` (`mpi_utils.py:92-126`).  Note the tests
    `rank == 0` of lines 115 and 123, independent of `root`. -/
def bcastFromRoot (rank root : Nat) (send : Obj K) : Prog K (NDArr K) := do
  let send ← Prog.lift (checkValid send)
  -- lines 115-120: `dtype` and `shape` are those of `send` on rank 0 and `None` elsewhere
  let own ← Prog.lift <| if rank = 0 then
      match send with
      | some a => .ok (some a)
      | none => .error .attributeError
    else .ok none
  let shape ← Prog.call (.bcast root (own.elim .none fun a => .shape a.shape))
  let dtype ← Prog.call (.bcast root (own.elim .none fun a => .dtype a.dtype))
  let buf ← Prog.lift <| if rank ≠ 0 then npEmpty shape dtype
    else match send with
      | some a => .ok a
      | none => .error .attributeError
  let ty ← Prog.lift (npDtype dtype)
  let mty ← Prog.lift (np2mpi ty)
  let o ← Prog.call (.bcastBuf root buf mty)
  Prog.lift (asArr o)

/-- `np.insert(np.cumsum(sizes), 0, 0)[:-1]` (`mpi_utils.py:164`): the running sums of all earlier
    sizes. -/
def disps (sizes : List Nat) : List Nat := (List.range sizes.length).map fun i => (sizes.take i).sum

/-- `Gatherv_rows(send, comm, root)` on process `rank` (`mpi_utils.py:129-171`).  `send = None`
    raises `AttributeError`; a 0-d array has become 1-d in `ascontiguousarray`.  Note `root=0` in
    the `Gatherv` of line 170.  Simplification: for 1-d input `np.prod(())` is the float `1.0`;
    sizes are natural numbers here. -/
def gathervRows (rank root : Nat) (send : Obj K) : Prog K (Option (NDArr K)) := do
  let send ← Prog.lift (checkValid send)
  let send ← Prog.lift (match send with
    | some a => .ok a
    | none => .error .attributeError)
  let n0 ← Prog.lift (match send.shape with
    | n0 :: _ => .ok n0
    | [] => .error .indexError)
  let sizes ← Prog.call (.gather root n0)
  let tot ← Prog.call (.reduceSum root n0)
  let recv ← Prog.lift <| if rank = root then
      match sizes, tot with
      | .nats rs, .nat t =>
        let sz := rs.map fun s => s * shapeSize send.shape.tail
        .ok (some (NDArr.empty (t :: send.shape.tail) send.dtype, sz, disps sz))
      | _, _ => .error .typeError
    else .ok none
  let mty ← Prog.lift (np2mpi send.dtype)
  let o ← Prog.call (.gatherv 0 send recv mty)
  -- `rec` has been filled in place, if this process is the root of the `Gatherv` itself
  return match recv, o with
    | none, _ => none
    | some _, .arr a => some a
    | some (buf, _), _ => some buf

/-- `load_data_MPI(h5_name, comm=comm, root=root)` on process `rank` (`mpi_utils.py:38-89`).
    `file` is what reading the two datasets gives on this process (only the root reads); reading
    may raise. -/
def loadDataMPI (rank root : Nat) (file : Except PyErr (NDArr K × NDArr K)) :
    Prog K (NDArr K × NDArr K) := do
  let own ← Prog.lift <| if rank = root then
      match file with
      | .ok p => .ok (some p)
      | .error e => .error e
    else .ok none
  -- lines 68-71 and 75-79: `None` except on the root
  let xs ← Prog.call (.bcast root (own.elim .none fun p => .shape p.1.shape))
  let xd ← Prog.call (.bcast root (own.elim .none fun p => .dtype p.1.dtype))
  let ys ← Prog.call (.bcast root (own.elim .none fun p => .shape p.2.shape))
  let yd ← Prog.call (.bcast root (own.elim .none fun p => .dtype p.2.dtype))
  let (x, y) ← Prog.lift <| match own with
    | some p => .ok p
    | none => do return (← npEmpty xs xd, ← npEmpty ys yd)
  let tx ← Prog.lift (np2mpi x.dtype)
  let ox ← Prog.call (.bcastBuf root x tx)
  let x ← Prog.lift (asArr ox)
  let ty ← Prog.lift (np2mpi y.dtype)
  let oy ← Prog.call (.bcastBuf root y ty)
  let y ← Prog.lift (asArr oy)
  return (x, y)

end Verif.MpiUtils
