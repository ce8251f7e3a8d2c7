import Verif.Py.Err
import Verif.Py.NDArray
/-!
Blocking MPI collectives on one communicator, as used by `/repo/src/pyuoi/mpi_utils.py` and
`/repo/src/pyuoi/linear_model/base.py` through `mpi4py`.

A process is a `Prog`: it returns, raises, or enters a collective and continues with what the
collective delivers.  A world of `n` processes advances only when all of them have entered the
same collective with the same root.
-/
namespace Verif.Py

/-- Python objects that are passed to or returned from the collectives in `mpi_utils.py`. -/
inductive Obj (K : Type) where
  | none
  | nat (n : Nat)
  | nats (l : List Nat)
  | shape (l : List Nat)
  | dtype (d : DType)
  | arr (a : NDArr K)
  | other
  deriving DecidableEq

/-- A collective call together with what this process passes to it. -/
inductive Op (K : Type) where
  /-- `comm.bcast(v, root)` (pickled object). -/
  | bcast (root : Nat) (v : Obj K)
  /-- `comm.Bcast([buf, mpitype], root)`. -/
  | bcastBuf (root : Nat) (buf : NDArr K) (ty : DType)
  /-- `comm.gather(v, root)` of an integer. -/
  | gather (root : Nat) (v : Nat)
  /-- `comm.Reduce(v, [tot, LONG], op=SUM, root)` of one integer. -/
  | reduceSum (root : Nat) (v : Nat)
  /-- `comm.Gatherv(send, [rec, sizes, disps, mpitype], root)`. -/
  | gatherv (root : Nat) (send : NDArr K) (recv : Option (NDArr K × List Nat × List Nat))
      (ty : DType)

/-- Which collective is entered. -/
inductive Kind where
  | bcast | bcastBuf | gather | reduceSum | gatherv
  deriving DecidableEq, Repr

/-- Kind and root of a collective; processes only meet when these agree. -/
def Op.tag {K : Type} : Op K → Kind × Nat
  | .bcast r _ => (.bcast, r)
  | .bcastBuf r _ _ => (.bcastBuf, r)
  | .gather r _ => (.gather, r)
  | .reduceSum r _ => (.reduceSum, r)
  | .gatherv r _ _ _ => (.gatherv, r)

/-- Write `seg` into `buf` from position `d` on; a segment that does not fit is an MPI error. -/
def placeAt {α : Type} (buf : List α) (d : Nat) (seg : List α) : Except PyErr (List α) :=
  if d + seg.length ≤ buf.length then .ok (buf.take d ++ seg ++ buf.drop (d + seg.length))
  else .error .mpiError

/-- The receive side of `Gatherv`: segment `i` must have the announced size and type and is
    written at the announced displacement. -/
def placeAll {K : Type} (ty : DType) :
    List (NDArr K) → List Nat → List Nat → List (Scalar K) → Except PyErr (List (Scalar K))
  | [], [], [], buf => .ok buf
  | a :: as, s :: ss, d :: ds, buf =>
    if a.dtype = ty ∧ a.data.length = s then
      match placeAt buf d a.data with
      | .ok buf' => placeAll ty as ss ds buf'
      | .error e => .error e
    else .error .mpiError
  | _, _, _, _ => .error .mpiError

/-- The array passed to a `Gatherv`. -/
def Op.sent? {K : Type} : Op K → Option (NDArr K)
  | .gatherv _ a _ _ => some a
  | _ => none

/-- The integer passed to a `gather` or `Reduce`. -/
def Op.val? {K : Type} : Op K → Option Nat
  | .gather _ v => some v
  | .reduceSum _ v => some v
  | _ => none

/-- The arrays passed to a `Gatherv`, in rank order. -/
def sends {K : Type} {n : Nat} (ops : Fin n → Op K) : List (NDArr K) :=
  (List.ofFn ops).filterMap Op.sent?

/-- The integers passed to a `gather` or `Reduce`, in rank order. -/
def vals {K : Type} {n : Nat} (ops : Fin n → Op K) : List Nat :=
  (List.ofFn ops).filterMap Op.val?

/-- What process `r` gets out of a collective that all processes entered with `ops`.  A root
    outside the communicator is an MPI error; so is a receive buffer whose length or type differs
    from what is sent (reinterpretation of bytes is not modelled). -/
def deliver {K : Type} {n : Nat} (ops : Fin n → Op K) (r : Fin n) : Except PyErr (Obj K) :=
  match ops r with
  | .bcast root _ =>
    if h : root < n then
      match ops ⟨root, h⟩ with
      | .bcast _ v => .ok v
      | _ => .error .mpiError
    else .error .mpiError
  | .bcastBuf root buf ty =>
    if h : root < n then
      match ops ⟨root, h⟩ with
      | .bcastBuf _ b tyb =>
        if r.val = root then .ok (.arr buf)
        else if ty = tyb ∧ b.dtype = buf.dtype ∧ b.data.length = buf.data.length then
          .ok (.arr { buf with data := b.data })
        else .error .mpiError
      | _ => .error .mpiError
    else .error .mpiError
  | .gather root _ =>
    if root < n then
      if r.val = root then .ok (.nats (vals ops)) else .ok .none
    else .error .mpiError
  | .reduceSum root _ =>
    if root < n then
      if r.val = root then .ok (.nat (vals ops).sum) else .ok (.nat 0)
    else .error .mpiError
  | .gatherv root _ recv ty =>
    if root < n then
      if r.val = root then
        match recv with
        | none => .error .mpiError
        | some (buf, sizes, disps) =>
          match placeAll ty (sends ops) sizes disps buf.data with
          | .ok data => .ok (.arr { buf with data := data })
          | .error e => .error e
      else .ok .none
    else .error .mpiError

/-- A process: it has returned, it has raised, or it is in a collective. -/
inductive Prog (K : Type) (α : Type) where
  | ret (a : α)
  | fail (e : PyErr)
  | coll (op : Op K) (k : Obj K → Prog K α)

namespace Prog
variable {K α β γ : Type}

/-- Sequential composition. -/
def bind : Prog K α → (α → Prog K β) → Prog K β
  | ret a, f => f a
  | fail e, _ => fail e
  | coll op k, f => coll op fun o => (k o).bind f

instance : Monad (Prog K) where
  pure := ret
  bind := bind

/-- A local computation that may raise. -/
def lift : Except PyErr α → Prog K α
  | .ok a => ret a
  | .error e => fail e

/-- Enter a collective. -/
def call (op : Op K) : Prog K (Obj K) := coll op ret

/-- Continue after a collective delivered its result (or raised). -/
def resume (k : Obj K → Prog K α) : Except PyErr (Obj K) → Prog K α
  | .ok o => k o
  | .error e => fail e

/-- The outcome of a finished process. -/
def outcome : Prog K α → Option (Except PyErr α)
  | ret a => some (.ok a)
  | fail e => some (.error e)
  | coll _ _ => none

end Prog

/-- `Runs W out`: the world `W` runs to completion and process `r` ends with `out r`.  There is no
    infinite run, so a world without outcome is one that gets stuck: some process waits in a
    collective that the others never enter. -/
inductive Runs {K α : Type} {n : Nat} :
    (Fin n → Prog K α) → (Fin n → Except PyErr α) → Prop where
  | done {W out} : (∀ r, (W r).outcome = some (out r)) → Runs W out
  | step {W out} (ops : Fin n → Op K) (k : Fin n → Obj K → Prog K α) (tag : Kind × Nat) :
      0 < n → (∀ r, W r = .coll (ops r) (k r)) → (∀ r, (ops r).tag = tag) →
      Runs (fun r => Prog.resume (k r) (deliver ops r)) out → Runs W out

/-- The world cannot run to completion. -/
def Stuck {K α : Type} {n : Nat} (W : Fin n → Prog K α) : Prop := ¬ ∃ out, Runs W out

end Verif.Py
