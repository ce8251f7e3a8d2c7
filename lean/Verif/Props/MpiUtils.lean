import Verif.Lemmas.Mpi
import Mathlib.Data.Rat.Defs
import Mathlib.Data.Fin.VecNotation
/-!
C36, C37, C38: the MPI helpers `Bcast_from_root`, `Gatherv_rows` and `load_data_MPI`.
-/
namespace Verif.MpiUtils
open Verif.Py

variable {K : Type} {n : Nat}

/-- **C36** for `root = 0` (any number of processes, any shape with at least one dimension, any
    supported dtype): every process ends up with the array that process 0 passed, whatever
    arrays (or `None`) the others passed.  Missing: other roots (`C36_negation`). -/
theorem C36_bcast_partial (hn : 0 < n) (x : Fin n → Obj K) (a : NDArr K)
    (h0 : x ⟨0, hn⟩ = .arr a) (hx : ∀ r, r.val ≠ 0 → x r = .none ∨ ∃ b, x r = .arr b)
    (hd : Supported a.dtype) (hs : a.shape ≠ []) (hwf : a.WF) :
    Runs (fun r => bcastFromRoot r.val 0 (x r)) (fun _ : Fin n => .ok a) := by
  have := runs_bcastFromRoot hn x a h0 hx (np2mpi_of_supported hd) hwf
  rwa [ascontiguous_of_ne hs] at this

/-- An unsupported dtype raises `KeyError` on every process instead of hanging. -/
theorem C36_unsupported (hn : 0 < n) (x : Fin n → Obj K) (a : NDArr K)
    (h0 : x ⟨0, hn⟩ = .arr a) (hx : ∀ r, r.val ≠ 0 → x r = .none)
    (hd : ¬ Supported a.dtype) :
    Runs (fun r => bcastFromRoot r.val 0 (x r)) (fun _ : Fin n => .error .keyError) := by
  unfold bcastFromRoot
  refine Runs.bind (v := fun r => if r.val = 0 then some a.ascontiguous else none)
    (Runs.lift ?_) ?_
  · intro r
    by_cases hr : r.val = 0
    · have : r = ⟨0, hn⟩ := Fin.ext hr
      subst this; simp [h0, checkValid]
    · simp [hx r hr, hr, checkValid]
  refine Runs.bind (v := fun r => if r.val = 0 then some a.ascontiguous else none)
    (Runs.lift ?_) ?_
  · intro r
    by_cases hr : r.val = 0 <;> simp [hr]
  refine Runs.bind (runs_bcast ⟨0, hn⟩ _ (w := .shape a.ascontiguous.shape) rfl) ?_
  refine Runs.bind (runs_bcast ⟨0, hn⟩ _ (w := .dtype a.dtype)
    (by simp [ascontiguous_dtype])) ?_
  refine Runs.bind (v := fun r => if r.val = 0 then a.ascontiguous
    else NDArr.empty a.ascontiguous.shape a.dtype) (Runs.lift ?_) ?_
  · intro r
    by_cases hr : r.val = 0 <;> simp [hr, npEmpty]
  refine Runs.bind (v := fun _ => a.dtype) (Runs.lift fun _ => rfl) ?_
  exact Runs.bind_error (Runs.lift_error fun _ => np2mpi_of_not hd)

example : Supported .int ∧ (NDArr.mk [2] .int [.i 4, .i 7] : NDArr ℚ).WF := by decide
example : Runs (fun r : Fin 3 => bcastFromRoot (K := ℚ) r.val 0
    (if r.val = 0 then .arr ⟨[2], .int, [.i 4, .i 7]⟩ else .none))
    (fun _ => .ok ⟨[2], .int, [.i 4, .i 7]⟩) :=
  C36_bcast_partial (by decide) _ _ rfl (fun r hr => .inl (by simp [hr])) (by decide)
    (by decide) (by decide)

/-- **C36** is false for every `root ≠ 0` when the other processes pass `None`, the documented
    way to call: process 0 raises (`None` has no `dtype`) and all others wait for ever. -/
theorem C36_negation (root : Nat) (h1 : root ≠ 0) (h2 : root < n) (x : Fin n → Obj K)
    (a : NDArr K) (hr : x ⟨root, h2⟩ = .arr a) (hx : ∀ r, r.val ≠ root → x r = .none) :
    Stuck fun r => bcastFromRoot r.val root (x r) := by
  have hn : 0 < n := by omega
  refine stuck_of_mixed ⟨0, hn⟩ ⟨root, h2⟩ ?_ ?_
  · rw [hx ⟨0, hn⟩ (by simpa using Ne.symm h1)]
    simp [bcastFromRoot, checkValid, Prog.lift, Prog.outcome, bind, Prog.bind]
  · rw [hr]
    simp [bcastFromRoot, checkValid, Prog.lift, Prog.outcome, bind, Prog.bind, h1, Prog.call]

example : Stuck fun r : Fin 2 => bcastFromRoot (K := ℚ) r.val 1
    (if r.val = 1 then .arr ⟨[1], .f64, [.f 3]⟩ else .none) :=
  C36_negation 1 (by decide) (by decide) _ ⟨[1], .f64, [.f 3]⟩ rfl
    (fun r hr => by simp [hr])

/-- **C36** is also false for `root ≠ 0` when every process passes an array: if the call returns on
    the root at all, the root has lost its own array and holds uninitialised memory. -/
theorem C36_negation_arrays (root : Nat) (h1 : root ≠ 0) (h2 : root < n) (x : Fin n → NDArr K)
    (out : Fin n → Except PyErr (NDArr K))
    (h : Runs (fun r => bcastFromRoot r.val root (.arr (x r))) out) :
    out ⟨root, h2⟩ = .ok ⟨[], .f64, [.undef]⟩ := by
  have hn : 0 < n := by omega
  let z : Fin n := ⟨root, h2⟩
  -- build a run and use uniqueness
  have key : ∃ o : Fin n → Except PyErr (NDArr K), o z = .ok ⟨[], .f64, [.undef]⟩ ∧
      Runs (fun r => bcastFromRoot r.val root (.arr (x r))) o := by
    let ops : Fin n → Op K := fun r => .bcastBuf root
      (if r.val = 0 then (x r).ascontiguous else NDArr.empty [] .f64) .f64
    refine ⟨fun r => deliver ops r >>= asArr, ?_, ?_⟩
    · have hz : ops z = .bcastBuf root (NDArr.empty [] .f64) .f64 := by simp [ops, z, h1]
      simp only [deliver_bcastBuf_root hz]
      simp [bind, Except.bind, asArr, NDArr.empty, shapeSize]
    · unfold bcastFromRoot
      refine Runs.bind (v := fun r => some (x r).ascontiguous) (Runs.lift fun _ => rfl) ?_
      refine Runs.bind (v := fun r => if r.val = 0 then some (x r).ascontiguous else none)
        (Runs.lift ?_) ?_
      · intro r; by_cases hr : r.val = 0 <;> simp [hr]
      refine Runs.bind (runs_bcast z _ (w := .none) (by simp [z, h1])) ?_
      refine Runs.bind (runs_bcast z _ (w := .none) (by simp [z, h1])) ?_
      refine Runs.bind (v := fun r => if r.val = 0 then (x r).ascontiguous
        else NDArr.empty [] .f64) (Runs.lift ?_) ?_
      · intro r; by_cases hr : r.val = 0 <;> simp [hr, npEmpty]
      refine Runs.bind (v := fun _ => DType.f64) (Runs.lift fun _ => rfl) ?_
      refine Runs.bind (v := fun _ => DType.f64) (Runs.lift fun _ => rfl) ?_
      refine Runs.bindE (Runs.callE (ops := ops) (.bcastBuf, root) hn fun _ => rfl) ?_
      refine .done fun r => ?_
      cases hdl : deliver ops r with
      | error e => rfl
      | ok o => cases o <;> rfl
  obtain ⟨o, ho, hR⟩ := key
  rw [Runs.unique h hR]; exact ho

/-- What a process passes to `Bcast_from_root` is checked even where it "has no effect": if one
    process other than the root 0 passes neither an array nor `None`, that process raises and all
    others wait for ever. -/
theorem C36_invalid_hangs (hn : 0 < n) (x : Fin n → Obj K) (a : NDArr K)
    (h0 : x ⟨0, hn⟩ = .arr a) (r : Fin n) (hr : x r ≠ .none) (hra : ∀ b, x r ≠ .arr b) :
    Stuck fun r => bcastFromRoot r.val 0 (x r) := by
  refine stuck_of_mixed r ⟨0, hn⟩ ?_ ?_
  · cases hx : x r <;>
      simp_all [bcastFromRoot, checkValid, Prog.lift, Prog.outcome, bind, Prog.bind]
  · rw [h0]
    simp [bcastFromRoot, checkValid, Prog.lift, Prog.outcome, bind, Prog.bind, Prog.call]

/-- If every process passes an object that is neither an array nor `None`, both helpers raise
    `ValueError` everywhere, whatever the root. -/
theorem C36_invalid (root : Nat) (x : Fin n → Obj K) (hx : ∀ r, x r ≠ .none)
    (hxa : ∀ r b, x r ≠ .arr b) :
    Runs (fun r => bcastFromRoot r.val root (x r)) (fun _ : Fin n => .error .valueError) ∧
    Runs (fun r => gathervRows r.val root (x r)) (fun _ : Fin n => .error .valueError) := by
  have h : ∀ r, checkValid (x r) = .error .valueError := by
    intro r
    have h1 := hx r
    have h2 := hxa r
    cases hr : x r <;> simp_all [checkValid]
  exact ⟨Runs.bind_error (Runs.lift_error h), Runs.bind_error (Runs.lift_error h)⟩

example : Stuck fun r : Fin 3 => bcastFromRoot (K := ℚ) r.val 0
    (if r.val = 0 then .arr ⟨[1], .f64, [.f 3]⟩ else if r.val = 1 then .other else .none) :=
  C36_invalid_hangs (by decide) _ ⟨[1], .f64, [.f 3]⟩ rfl 1 (by decide) (fun b => by simp)

example : Runs (fun r : Fin 2 => gathervRows (K := ℚ) r.val 0 .other)
    (fun _ => .error .valueError) :=
  (C36_invalid 0 (fun _ => .other) (by simp) (by simp)).2

/-- **C37** for `root = 0`: for any number of processes and any numbers of rows (zero included),
    process 0 gets the row-wise concatenation in rank order and everybody else `None`.
    Missing: other roots (`C37_negation`). -/
theorem C37_gatherv_partial (hn : 0 < n) (a : Fin n → NDArr K) (rows : Fin n → Nat)
    (tail : List Nat) (d : DType) (hs : ∀ r, (a r).shape = rows r :: tail)
    (hd : ∀ r, (a r).dtype = d) (hwf : ∀ r, (a r).WF) (hty : Supported d) :
    ∃ whole, IsRowConcat (List.ofFn a) whole ∧ whole.WF ∧
      Runs (fun r => gathervRows r.val 0 (.arr (a r)))
        (fun r => .ok (if r.val = 0 then some whole else none)) := by
  refine ⟨_, ?_, ?_, runs_gathervRows hn _ a (fun _ => rfl) rows tail d hs hd hwf
    (np2mpi_of_supported hty)⟩
  · refine ⟨tail, ?_, ?_, ?_⟩
    · intro b hb
      rw [List.mem_ofFn] at hb
      obtain ⟨r, rfl⟩ := hb
      simp [hs r, hd r]
    · have : (List.ofFn a).map (fun a => a.shape.headD 0) = List.ofFn rows := by
        rw [List.map_ofFn]; congr 1; funext r; simp [hs r]
      rw [this]
    · simp [List.flatMap_def]
  · change ((List.ofFn a).flatMap NDArr.data).length = (List.ofFn rows).sum * shapeSize tail
    rw [List.length_flatMap, ← sum_map_mul, List.map_ofFn, List.map_ofFn]
    congr 2
    funext r
    have := hwf r
    unfold NDArr.WF at this
    simp only [Function.comp, this, hs r]
    rfl

/-- Three processes with 1, 0 and 2 rows of 2 columns. -/
def exG : Fin 3 → NDArr ℚ
  | 0 => ⟨[1, 2], .f64, [.f 1, .f 2]⟩
  | 1 => ⟨[0, 2], .f64, []⟩
  | 2 => ⟨[2, 2], .f64, [.f 3, .f 4, .f 5, .f 6]⟩

example : Supported .f64 ∧ (∀ r, (exG r).shape = ![1, 0, 2] r :: [2]) ∧
    (∀ r, (exG r).dtype = .f64) ∧ ∀ r, (exG r).WF := by decide
example : IsRowConcat (List.ofFn exG) ⟨[3, 2], .f64, [.f 1, .f 2, .f 3, .f 4, .f 5, .f 6]⟩ :=
  ⟨[2], by simp [exG], by simp [exG], by simp [exG]⟩

/-- **C37** is false for `root ≠ 0`: process 0 raises and the root receives uninitialised memory
    (never the concatenation, unless there is nothing to concatenate). -/
theorem C37_negation (root : Nat) (h1 : root ≠ 0) (h2 : root < n) (a : Fin n → NDArr K)
    (rows : Fin n → Nat) (tail : List Nat) (d : DType) (hs : ∀ r, (a r).shape = rows r :: tail)
    (hd : ∀ r, (a r).dtype = d) (hty : Supported d) :
    ∃ out, Runs (fun r => gathervRows r.val root (.arr (a r))) out ∧
      out ⟨0, by omega⟩ = .error .mpiError ∧
      out ⟨root, h2⟩ = .ok (some (NDArr.empty ((List.ofFn rows).sum :: tail) d)) := by
  have hn : 0 < n := by omega
  have hac : ∀ r, (a r).ascontiguous = a r := fun r => ascontiguous_of_ne (by rw [hs r]; simp)
  let rv : Fin n → Option (NDArr K × List Nat × List Nat) := fun r => if r.val = root then
      some (NDArr.empty ((List.ofFn rows).sum :: tail) d,
        (List.ofFn rows).map (fun s => s * shapeSize tail),
        disps ((List.ofFn rows).map fun s => s * shapeSize tail)) else none
  let ops : Fin n → Op K := fun r => .gatherv 0 (a r) (rv r) d
  have hdel : ∀ r, deliver ops r = if r.val = 0 then .error .mpiError else .ok .none := by
    intro r
    simp only [deliver, ops, hn, if_true]
    by_cases hr : r.val = 0
    · have : rv r = none := by simp [rv, hr, Ne.symm h1]
      simp [hr, this]
    · simp [hr]
  refine ⟨fun r => if r.val = 0 then .error .mpiError else .ok ((rv r).map Prod.fst), ?_, ?_, ?_⟩
  · unfold gathervRows
    refine Runs.bind (v := fun r => some (a r)) (Runs.lift fun r => by
      simp [checkValid, hac]) ?_
    refine Runs.bind (v := a) (Runs.lift fun _ => rfl) ?_
    refine Runs.bind (v := rows) (Runs.lift fun r => by simp [hs r]) ?_
    refine Runs.bind (v := fun r => if r.val = root then .nats (List.ofFn rows) else .none)
      (Runs.call (.gather, root) hn (fun _ => rfl) ?_) ?_
    · intro r
      simp only [deliver, h2, if_true, vals_gather]
      split <;> rfl
    refine Runs.bind (v := fun r => if r.val = root then .nat (List.ofFn rows).sum else .nat 0)
      (Runs.call (.reduceSum, root) hn (fun _ => rfl) ?_) ?_
    · intro r
      simp only [deliver, h2, if_true, vals_reduce]
      split <;> rfl
    refine Runs.bind (v := rv) (Runs.lift ?_) ?_
    · intro r
      by_cases hr : r.val = root
      · simp [rv, hr, hs r, hd r]
      · simp [rv, hr]
    refine Runs.bind (v := fun _ => d) (Runs.lift fun r => by
      rw [hd r, np2mpi_of_supported hty]) ?_
    refine Runs.bindE (Runs.callE (ops := ops) (.gatherv, 0) hn fun _ => rfl) ?_
    refine .done fun r => ?_
    rw [hdel r]
    by_cases hr : r.val = 0
    · simp [hr, after, Prog.outcome]
    · simp only [hr, if_false, after]
      cases hrv : rv r with
      | none => rfl
      | some p => rfl
  · simp
  · simp [h1, rv]

example : (0 : Fin 2).val ≠ 1 ∧ 1 < 2 ∧ Supported .f64 := by decide

/-- **C38**.  For every number of processes, every root and every pair of arrays of supported
    dtype stored in the file, all processes return the two stored arrays.  What the file looks
    like on other processes is irrelevant. -/
theorem C38_load_data (root : Fin n) (file : Fin n → Except PyErr (NDArr K × NDArr K))
    (x y : NDArr K) (hf : file root = .ok (x, y)) (hx : Supported x.dtype)
    (hy : Supported y.dtype) (wx : x.WF) (wy : y.WF) :
    Runs (fun r => loadDataMPI r.val root.val (file r)) (fun _ => .ok (x, y)) := by
  unfold loadDataMPI
  refine Runs.bind (v := fun r => if r = root then some (x, y) else none) (Runs.lift ?_) ?_
  · intro r
    by_cases hr : r = root
    · subst hr; simp [hf]
    · have : r.val ≠ root.val := fun e => hr (Fin.ext e)
      simp [hr, this]
  refine Runs.bind (runs_bcast root _ (w := .shape x.shape) (by simp)) ?_
  refine Runs.bind (runs_bcast root _ (w := .dtype x.dtype) (by simp)) ?_
  refine Runs.bind (runs_bcast root _ (w := .shape y.shape) (by simp)) ?_
  refine Runs.bind (runs_bcast root _ (w := .dtype y.dtype) (by simp)) ?_
  refine Runs.bind (v := fun r => (if r = root then x else NDArr.empty x.shape x.dtype,
    if r = root then y else NDArr.empty y.shape y.dtype)) (Runs.lift ?_) ?_
  · intro r; by_cases hr : r = root <;> simp [hr, npEmpty, bind, Except.bind, pure, Except.pure]
  refine Runs.bind (v := fun _ => x.dtype) (Runs.lift ?_) ?_
  · intro r; by_cases hr : r = root <;> simp [hr, np2mpi_of_supported hx, NDArr.empty]
  refine Runs.bind (runs_bcastBuf root _ _ (w := x) (by simp) ?_ ?_ ?_) ?_
  · intro r; by_cases hr : r = root <;> simp [hr, NDArr.empty]
  · intro r; by_cases hr : r = root <;> simp [hr, NDArr.empty]
  · intro r; by_cases hr : r = root
    · simp [hr]
    · simp [hr, NDArr.empty]; exact wx.symm
  refine Runs.bind (v := fun _ => x) (Runs.lift fun _ => rfl) ?_
  refine Runs.bind (v := fun _ => y.dtype) (Runs.lift ?_) ?_
  · intro r; by_cases hr : r = root <;> simp [hr, np2mpi_of_supported hy, NDArr.empty]
  refine Runs.bind (runs_bcastBuf root _ _ (w := y) (by simp) ?_ ?_ ?_) ?_
  · intro r; by_cases hr : r = root <;> simp [hr, NDArr.empty]
  · intro r; by_cases hr : r = root <;> simp [hr, NDArr.empty]
  · intro r; by_cases hr : r = root
    · simp [hr]
    · simp [hr, NDArr.empty]; exact wy.symm
  refine Runs.bind (v := fun _ => y) (Runs.lift fun _ => rfl) ?_
  exact Runs.ret fun _ => (x, y)

/-- **C38**, unsupported dtypes: every process raises `KeyError`. -/
theorem C38_unsupported (root : Fin n) (file : Fin n → Except PyErr (NDArr K × NDArr K))
    (x y : NDArr K) (hf : file root = .ok (x, y)) (wx : x.WF)
    (h : ¬ Supported x.dtype ∨ ¬ Supported y.dtype) :
    Runs (fun r => loadDataMPI r.val root.val (file r)) (fun _ => .error .keyError) := by
  unfold loadDataMPI
  refine Runs.bind (v := fun r => if r = root then some (x, y) else none) (Runs.lift ?_) ?_
  · intro r
    by_cases hr : r = root
    · subst hr; simp [hf]
    · have : r.val ≠ root.val := fun e => hr (Fin.ext e)
      simp [hr, this]
  refine Runs.bind (runs_bcast root _ (w := .shape x.shape) (by simp)) ?_
  refine Runs.bind (runs_bcast root _ (w := .dtype x.dtype) (by simp)) ?_
  refine Runs.bind (runs_bcast root _ (w := .shape y.shape) (by simp)) ?_
  refine Runs.bind (runs_bcast root _ (w := .dtype y.dtype) (by simp)) ?_
  refine Runs.bind (v := fun r => (if r = root then x else NDArr.empty x.shape x.dtype,
    if r = root then y else NDArr.empty y.shape y.dtype)) (Runs.lift ?_) ?_
  · intro r; by_cases hr : r = root <;> simp [hr, npEmpty, bind, Except.bind, pure, Except.pure]
  by_cases hx : Supported x.dtype
  · have hy : ¬ Supported y.dtype := h.resolve_left (not_not_intro hx)
    refine Runs.bind (v := fun _ => x.dtype) (Runs.lift ?_) ?_
    · intro r; by_cases hr : r = root <;> simp [hr, np2mpi_of_supported hx, NDArr.empty]
    refine Runs.bind (runs_bcastBuf root _ _ (w := x) (by simp) ?_ ?_ ?_) ?_
    · intro r; by_cases hr : r = root <;> simp [hr, NDArr.empty]
    · intro r; by_cases hr : r = root <;> simp [hr, NDArr.empty]
    · intro r; by_cases hr : r = root
      · simp [hr]
      · simp [hr, NDArr.empty]; exact wx.symm
    refine Runs.bind (v := fun _ => x) (Runs.lift fun _ => rfl) ?_
    refine Runs.bind_error (Runs.lift_error ?_)
    intro r; by_cases hr : r = root <;> simp [hr, np2mpi_of_not hy, NDArr.empty]
  · refine Runs.bind_error (Runs.lift_error ?_)
    intro r; by_cases hr : r = root <;> simp [hr, np2mpi_of_not hx, NDArr.empty]

example : Runs (fun r : Fin 3 => loadDataMPI (K := ℚ) r.val 2
      (if r.val = 2 then .ok (⟨[2, 1], .f64, [.f 1, .f 2]⟩, ⟨[2], .intc, [.i 0, .i 1]⟩)
        else .error .keyError))
    (fun _ => .ok (⟨[2, 1], .f64, [.f 1, .f 2]⟩, ⟨[2], .intc, [.i 0, .i 1]⟩)) :=
  C38_load_data (2 : Fin 3) (fun r : Fin 3 => if r.val = 2 then .ok _ else .error .keyError)
    ⟨[2, 1], .f64, [.f 1, .f 2]⟩ ⟨[2], .intc, [.i 0, .i 1]⟩ rfl
    (by decide) (by decide) (by decide) (by decide)

example : ¬ Supported .bool := by decide

end Verif.MpiUtils
