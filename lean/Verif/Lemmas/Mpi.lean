import Verif.Model.MpiUtils
import Verif.Spec.Mpi
import Verif.Lemmas.Flatten
import Mathlib.Data.List.OfFn
import Mathlib.Tactic.Common
/-! Reasoning rules for worlds of processes and the helpers of `mpi_utils.py`. -/
namespace Verif.Py

variable {K α β : Type} {n : Nat}

@[simp] theorem Prog.pure_bind (a : α) (f : α → Prog K β) : (Prog.ret a).bind f = f a := rfl
@[simp] theorem Prog.fail_bind (e : PyErr) (f : α → Prog K β) :
    (Prog.fail e : Prog K α).bind f = .fail e := rfl

theorem Prog.bind_ret (p : Prog K α) : p.bind Prog.ret = p := by
  induction p with
  | ret a => rfl
  | fail e => rfl
  | coll op k ih => simp only [Prog.bind]; congr; funext o; exact ih o

theorem Prog.bind_assoc {γ : Type} (p : Prog K α) (f : α → Prog K β) (g : β → Prog K γ) :
    (p.bind f).bind g = p.bind fun a => (f a).bind g := by
  induction p with
  | ret a => rfl
  | fail e => rfl
  | coll op k ih => simp only [Prog.bind]; congr; funext o; exact ih o

instance : LawfulMonad (Prog K) := LawfulMonad.mk'
  (id_map := fun p => Prog.bind_ret p)
  (pure_bind := fun _ _ => rfl)
  (bind_assoc := fun p f g => Prog.bind_assoc p f g)

theorem Runs.ret (v : Fin n → α) : Runs (K := K) (fun r => .ret (v r)) (fun r => .ok (v r)) :=
  .done fun _ => rfl

/-- What follows a first part that ended with the given outcome. -/
def after (o : Except PyErr α) (k : α → Prog K β) : Prog K β :=
  match o with
  | .ok a => k a
  | .error e => .fail e

/-- Sequential composition of worlds. -/
theorem Runs.bindE {m : Fin n → Prog K α} {o : Fin n → Except PyErr α}
    {k : Fin n → α → Prog K β} {out : Fin n → Except PyErr β} (h : Runs m o)
    (h' : Runs (fun r => after (o r) (k r)) out) : Runs (fun r => m r >>= k r) out := by
  induction h with
  | @done W out' hd =>
    have : (fun r => W r >>= k r) = fun r => after (out' r) (k r) := by
      funext r
      have := hd r
      cases hW : W r with
      | ret a => rw [hW] at this; simp [Prog.outcome] at this; rw [← this]; rfl
      | fail e => rw [hW] at this; simp [Prog.outcome] at this; rw [← this]; rfl
      | coll op k => rw [hW] at this; simp [Prog.outcome] at this
    rw [this]; exact h'
  | @step W out' ops k' tag hn hW htag _ ih =>
    refine Runs.step ops (fun r o => k' r o >>= k r) tag hn ?_ htag ?_
    · intro r; simp only [hW r]; rfl
    · have := ih h'
      refine cast ?_ this
      congr 1
      funext r
      change Prog.bind (Prog.resume (k' r) (deliver ops r)) (k r) = _
      cases deliver ops r with
      | ok o => rfl
      | error e => rfl

/-- Sequential composition of worlds without exceptions in the first part. -/
theorem Runs.bind {m : Fin n → Prog K α} {v : Fin n → α} {k : Fin n → α → Prog K β}
    {out : Fin n → Except PyErr β} (h : Runs m fun r => .ok (v r))
    (h' : Runs (fun r => k r (v r)) out) : Runs (fun r => m r >>= k r) out :=
  Runs.bindE h h'

/-- Everybody raises. -/
theorem Runs.bind_error {m : Fin n → Prog K α} {e : Fin n → PyErr} {k : Fin n → α → Prog K β}
    (h : Runs m fun r => .error (e r)) : Runs (fun r => m r >>= k r) fun r => .error (e r) :=
  Runs.bindE h (.done fun _ => rfl)

theorem Runs.lift_error {f : Fin n → Except PyErr α} {v : Fin n → PyErr}
    (h : ∀ r, f r = .error (v r)) :
    Runs (K := K) (fun r => Prog.lift (f r)) (fun r => .error (v r)) := by
  refine .done fun r => ?_
  simp only [h r]; rfl

/-- Local computations always finish. -/
theorem Runs.liftE (f : Fin n → Except PyErr α) :
    Runs (K := K) (fun r => Prog.lift (f r)) f := by
  refine .done fun r => ?_
  cases h : f r <;> simp [Prog.lift, Prog.outcome]

theorem Runs.callE {ops : Fin n → Op K} (tag : Kind × Nat) (hn : 0 < n)
    (htag : ∀ r, (ops r).tag = tag) :
    Runs (fun r => Prog.call (ops r)) (deliver ops) := by
  refine .step ops (fun _ => .ret) tag hn (fun _ => rfl) htag ?_
  refine .done fun r => ?_
  cases h : deliver ops r <;> simp [Prog.resume, Prog.outcome]

theorem Runs.lift {f : Fin n → Except PyErr α} {v : Fin n → α} (h : ∀ r, f r = .ok (v r)) :
    Runs (K := K) (fun r => Prog.lift (f r)) (fun r => .ok (v r)) := by
  refine .done fun r => ?_
  simp only [h r]; rfl

theorem Runs.call {ops : Fin n → Op K} {v : Fin n → Obj K} (tag : Kind × Nat) (hn : 0 < n)
    (htag : ∀ r, (ops r).tag = tag) (hd : ∀ r, deliver ops r = .ok (v r)) :
    Runs (fun r => Prog.call (ops r)) (fun r => .ok (v r)) := by
  refine .step ops (fun _ => .ret) tag hn (fun _ => rfl) htag ?_
  refine .done fun r => ?_
  simp only [hd r]; rfl

/-- The outcome of a world is unique. -/
theorem Runs.unique {W : Fin n → Prog K α} {o o' : Fin n → Except PyErr α}
    (h : Runs W o) (h' : Runs W o') : o = o' := by
  induction h with
  | @done W out hd =>
    cases h' with
    | done hd' => funext r; have := hd r; rw [hd' r] at this; exact (Option.some.inj this).symm
    | step ops k tag hn hW _ _ =>
      have := hd ⟨0, hn⟩
      rw [hW] at this; simp [Prog.outcome] at this
  | @step W out ops k tag hn hW htag _ ih =>
    cases h' with
    | done hd' =>
      have := hd' ⟨0, hn⟩
      rw [hW] at this; simp [Prog.outcome] at this
    | step ops' k' tag' hn' hW' htag' h2 =>
      have he : ops' = ops ∧ k' = k := by
        constructor <;> funext r <;> have := hW r <;> rw [hW' r] at this <;> injection this
      obtain ⟨rfl, rfl⟩ := he
      exact ih h2

theorem Runs.of_eq {W W' : Fin n → Prog K α} {out : Fin n → Except PyErr α} (h : Runs W' out)
    (e : ∀ r, W r = W' r) : Runs W out := by
  have : W = W' := funext e
  rw [this]; exact h

/-- A world in which one process has ended (returned or raised) while another waits is stuck. -/
theorem stuck_of_mixed {W : Fin n → Prog K α} (r s : Fin n) (hr : (W r).outcome ≠ none)
    (hs : (W s).outcome = none) : Stuck W := by
  rintro ⟨out, h⟩
  cases h with
  | done hd => rw [hd s] at hs; cases hs
  | step ops k tag hn hW _ _ => rw [hW r] at hr; exact hr rfl

/-- A world in which all processes are in collectives that do not match is stuck. -/
theorem stuck_of_tags {W : Fin n → Prog K α} {r s : Fin n} {o o' : Op K}
    {k k' : Obj K → Prog K α} (hr : W r = .coll o k) (hs : W s = .coll o' k')
    (h : o.tag ≠ o'.tag) : Stuck W := by
  rintro ⟨out, hR⟩
  cases hR with
  | done hd => have := hd r; rw [hr] at this; simp [Prog.outcome] at this
  | step ops k tag hn hW htag _ =>
    have h1 := hW r; have h2 := hW s
    rw [hr] at h1; rw [hs] at h2
    injection h1 with h1 _; injection h2 with h2 _
    apply h; rw [h1, h2, htag, htag]

/-- If the world is stuck after a collective, it is stuck before it. -/
theorem stuck_step {W : Fin n → Prog K α} {ops : Fin n → Op K} {k : Fin n → Obj K → Prog K α}
    (hn : 0 < n) (hW : ∀ r, W r = .coll (ops r) (k r))
    (h : Stuck fun r => Prog.resume (k r) (deliver ops r)) : Stuck W := by
  rintro ⟨out, hR⟩
  cases hR with
  | done hd => have := hd ⟨0, hn⟩; rw [hW] at this; simp [Prog.outcome] at this
  | step ops' k' tag hn' hW' _ h2 =>
    have he : ops' = ops ∧ k' = k := by
      constructor <;> funext r <;> have := hW r <;> rw [hW' r] at this <;> injection this
    obtain ⟨rfl, rfl⟩ := he
    exact h ⟨out, h2⟩

/-- If the second part gets stuck, so does the whole. -/
theorem Stuck.bind {m : Fin n → Prog K α} {o : Fin n → Except PyErr α}
    {k : Fin n → α → Prog K β} (h : Runs m o)
    (h' : Stuck fun r => after (o r) (k r)) : Stuck (fun r => m r >>= k r) := by
  induction h with
  | @done W out' hd =>
    have : (fun r => W r >>= k r) = fun r => after (out' r) (k r) := by
      funext r
      have := hd r
      cases hW : W r with
      | ret a => rw [hW] at this; simp [Prog.outcome] at this; rw [← this]; rfl
      | fail e => rw [hW] at this; simp [Prog.outcome] at this; rw [← this]; rfl
      | coll op k => rw [hW] at this; simp [Prog.outcome] at this
    rw [this]; exact h'
  | @step W out' ops k' tag hn hW htag _ ih =>
    have hWk : ∀ r, (W r >>= k r) = .coll (ops r) fun o => k' r o >>= k r := by
      intro r; simp only [hW r]; rfl
    refine stuck_step hn hWk ?_
    have := ih h'
    refine cast ?_ this
    congr 1
    funext r
    change Prog.bind (Prog.resume (k' r) (deliver ops r)) (k r) = _
    cases deliver ops r with
    | ok o => rfl
    | error e => rfl

end Verif.Py

namespace Verif.MpiUtils
open Verif.Py
variable {K α β : Type} {n : Nat}

theorem np2mpi_ok {d t : DType} (h : np2mpi d = .ok t) : t = d := by
  cases d <;> simp [np2mpi] at h <;> exact h.symm

theorem np2mpi_of_supported {d : DType} (h : Supported d) : np2mpi d = .ok d := by
  rcases h with rfl | rfl | rfl | rfl <;> rfl

theorem np2mpi_of_not {d : DType} (h : ¬ Supported d) : np2mpi d = .error .keyError := by
  cases d <;> simp_all [np2mpi, Supported]

theorem shapeSize_pos_cons (a : Nat) (s : List Nat) : shapeSize (a :: s) = a * shapeSize s := rfl

theorem ascontiguous_wf {a : NDArr K} (h : a.WF) : a.ascontiguous.WF := by
  obtain ⟨s, d, x⟩ := a
  cases s <;> simpa [NDArr.ascontiguous, NDArr.WF, shapeSize] using h

theorem ascontiguous_dtype (a : NDArr K) : a.ascontiguous.dtype = a.dtype := by
  obtain ⟨s, d, x⟩ := a
  cases s <;> rfl

theorem ascontiguous_of_ne {a : NDArr K} (h : a.shape ≠ []) : a.ascontiguous = a := by
  obtain ⟨s, d, x⟩ := a
  cases s with
  | nil => exact absurd rfl h
  | cons => rfl

theorem ascontiguous_ne (a : NDArr K) : a.ascontiguous.shape ≠ [] := by
  obtain ⟨s, d, x⟩ := a
  cases s <;> simp [NDArr.ascontiguous]

/-- `comm.bcast` with a valid root. -/
theorem runs_bcast (root : Fin n) (v : Fin n → Obj K) {w : Obj K} (hw : v root = w) :
    Runs (fun r => Prog.call (Op.bcast root.val (v r))) (fun _ : Fin n => .ok w) := by
  subst hw
  refine Runs.call (.bcast, root.val) (Nat.lt_of_le_of_lt (Nat.zero_le _) root.2) (fun _ => rfl) ?_
  intro r
  simp [deliver]

/-- `comm.Bcast` with a valid root, matching types and lengths. -/
theorem runs_bcastBuf (root : Fin n) (buf : Fin n → NDArr K) (ty : DType) {w : NDArr K}
    (hw : buf root = w)
    (hs : ∀ r, (buf r).shape = (buf root).shape) (hd : ∀ r, (buf r).dtype = (buf root).dtype)
    (hl : ∀ r, (buf r).data.length = (buf root).data.length) :
    Runs (fun r => Prog.call (Op.bcastBuf root.val (buf r) ty))
      (fun _ : Fin n => .ok (.arr w)) := by
  subst hw
  refine Runs.call (.bcastBuf, root.val) (Nat.lt_of_le_of_lt (Nat.zero_le _) root.2)
    (fun _ => rfl) ?_
  intro r
  by_cases h : r = root
  · subst h; simp [deliver]
  · have h' : r.val ≠ root.val := fun e => h (Fin.ext e)
    simp only [deliver, root.2, dite_true, h', if_false, hd r, hl r, and_self, if_true, hs r]

theorem deliver_bcastBuf_root {ops : Fin n → Op K} {z : Fin n} {buf : NDArr K} {ty : DType}
    (hz : ops z = .bcastBuf z.val buf ty) : deliver ops z = .ok (.arr buf) := by
  unfold deliver
  simp only [hz, z.2, dite_true, Fin.eta, if_true]

/-- The rule for `Bcast_from_root` with `root = 0`. -/
theorem runs_bcastFromRoot (hn : 0 < n) (x : Fin n → Obj K) (a : NDArr K)
    (h0 : x ⟨0, hn⟩ = .arr a) (hx : ∀ r, r.val ≠ 0 → x r = .none ∨ ∃ b, x r = .arr b)
    {ty : DType} (hty : np2mpi a.dtype = .ok ty) (hwf : a.WF) :
    Runs (fun r => bcastFromRoot r.val 0 (x r)) (fun _ : Fin n => .ok a.ascontiguous) := by
  unfold bcastFromRoot
  -- the validated argument
  have hval : ∃ sv : Fin n → Option (NDArr K), sv ⟨0, hn⟩ = some a.ascontiguous ∧
      ∀ r, checkValid (x r) = .ok (sv r) := by
    refine ⟨fun r => match x r with | .arr b => some b.ascontiguous | _ => none, ?_, ?_⟩
    · simp [h0]
    · intro r
      by_cases hr : r.val = 0
      · have : r = ⟨0, hn⟩ := Fin.ext hr
        subst this; simp [h0, checkValid]
      · rcases hx r hr with h | ⟨b, h⟩ <;> simp [h, checkValid]
  obtain ⟨sv, hs0, hsv⟩ := hval
  refine Runs.bind (Runs.lift hsv) ?_
  refine Runs.bind (v := fun r => if r.val = 0 then some a.ascontiguous else none)
    (Runs.lift ?_) ?_
  · intro r
    by_cases hr : r.val = 0
    · have : r = ⟨0, hn⟩ := Fin.ext hr
      subst this
      simp [hs0]
    · simp [hr]
  refine Runs.bind (runs_bcast ⟨0, hn⟩ _ (w := .shape a.ascontiguous.shape) rfl) ?_
  refine Runs.bind (runs_bcast ⟨0, hn⟩ _ (w := .dtype a.dtype)
    (by simp [ascontiguous_dtype])) ?_
  refine Runs.bind (v := fun r => if r.val = 0 then a.ascontiguous
    else NDArr.empty a.ascontiguous.shape a.dtype) (Runs.lift ?_) ?_
  · intro r
    by_cases hr : r.val = 0
    · have : r = ⟨0, hn⟩ := Fin.ext hr
      subst this
      simp [hs0]
    · simp [hr, npEmpty]
  refine Runs.bind (v := fun _ => a.dtype) (Runs.lift fun _ => rfl) ?_
  refine Runs.bind (v := fun _ => ty) (Runs.lift fun _ => hty) ?_
  refine Runs.bind (runs_bcastBuf ⟨0, hn⟩ _ ty (w := a.ascontiguous) rfl ?_ ?_ ?_) ?_
  · intro r; by_cases hr : r.val = 0 <;> simp [hr, NDArr.empty]
  · intro r; by_cases hr : r.val = 0 <;> simp [hr, NDArr.empty, ascontiguous_dtype]
  · intro r
    by_cases hr : r.val = 0
    · simp [hr]
    · simp [hr, NDArr.empty]
      exact (ascontiguous_wf hwf).symm
  · exact Runs.lift fun _ => rfl

/-- Running sums starting from `o`. -/
def offsets : Nat → List Nat → List Nat
  | _, [] => []
  | o, s :: ss => o :: offsets (o + s) ss

theorem offsets_eq (o : Nat) (ss : List Nat) :
    offsets o ss = (List.range ss.length).map fun i => o + (ss.take i).sum := by
  induction ss generalizing o with
  | nil => rfl
  | cons s ss ih =>
    rw [offsets, ih, List.length_cons, List.range_succ_eq_map]
    simp [Nat.add_assoc]

theorem disps_eq (ss : List Nat) : disps ss = offsets 0 ss := by
  rw [offsets_eq]; simp [disps]

theorem placeAt_append {γ : Type} (done rest seg : List γ) (h : seg.length ≤ rest.length) :
    placeAt (done ++ rest) done.length seg = .ok (done ++ seg ++ rest.drop seg.length) := by
  unfold placeAt
  rw [if_pos (by rw [List.length_append]; omega)]
  simp [List.drop_append]

theorem placeAll_append (ty : DType) (as : List (NDArr K)) (hty : ∀ a ∈ as, a.dtype = ty) :
    ∀ (done rest : List (Scalar K)), rest.length = (as.map fun a => a.data.length).sum →
      placeAll ty as (as.map fun a => a.data.length)
        (offsets done.length (as.map fun a => a.data.length)) (done ++ rest) =
      .ok (done ++ as.flatMap NDArr.data) := by
  induction as with
  | nil =>
    intro done rest h
    simp at h
    simp [placeAll, offsets, h]
  | cons a as ih =>
    intro done rest h
    simp only [List.map_cons, List.sum_cons] at h
    simp only [List.map_cons, offsets, placeAll]
    rw [if_pos (by simp [hty a List.mem_cons_self]), placeAt_append _ _ _ (by omega)]
    have := ih (fun b hb => hty b (List.mem_cons_of_mem _ hb)) (done ++ a.data)
      (rest.drop a.data.length) (by rw [List.length_drop]; omega)
    rw [List.length_append] at this
    simp only [this]
    simp

theorem filterMap_ofFn {γ δ : Type} (f : γ → Option δ) (g : Fin n → γ) (v : Fin n → δ)
    (h : ∀ r, f (g r) = some (v r)) : (List.ofFn g).filterMap f = List.ofFn v := by
  induction n with
  | zero => simp
  | succ n ih =>
    rw [List.ofFn_succ, List.ofFn_succ, List.filterMap_cons, h 0]
    simp [ih (fun r => g r.succ) (fun r => v r.succ) fun r => h r.succ]

theorem sum_map_mul (l : List Nat) (c : Nat) : (l.map fun s => s * c).sum = l.sum * c := by
  induction l with
  | nil => simp
  | cons a l ih => simp [ih, Nat.add_mul]

theorem sends_ofFn (root : Nat) (a : Fin n → NDArr K)
    (recv : Fin n → Option (NDArr K × List Nat × List Nat)) (ty : DType) :
    sends (fun r => Op.gatherv root (a r) (recv r) ty) = List.ofFn a := by
  unfold sends
  exact filterMap_ofFn _ _ _ fun _ => rfl

theorem vals_gather (root : Nat) (v : Fin n → Nat) :
    vals (K := K) (fun r => Op.gather root (v r)) = List.ofFn v := by
  unfold vals
  exact filterMap_ofFn _ _ _ fun _ => rfl

theorem vals_reduce (root : Nat) (v : Fin n → Nat) :
    vals (K := K) (fun r => Op.reduceSum root (v r)) = List.ofFn v := by
  unfold vals
  exact filterMap_ofFn _ _ _ fun _ => rfl

/-- The rule for `Gatherv_rows` with `root = 0`: rank 0 gets the concatenation, others `None`. -/
theorem runs_gathervRows (hn : 0 < n) (x : Fin n → Obj K) (a : Fin n → NDArr K)
    (hx : ∀ r, x r = .arr (a r)) (rows : Fin n → Nat) (tail : List Nat) (d : DType)
    (hs : ∀ r, (a r).shape = rows r :: tail) (hd : ∀ r, (a r).dtype = d)
    (hwf : ∀ r, (a r).WF) {ty : DType} (hty : np2mpi d = .ok ty) :
    Runs (fun r => gathervRows r.val 0 (x r)) (fun r => .ok (if r.val = 0 then
      some ⟨(List.ofFn rows).sum :: tail, d, (List.ofFn a).flatMap NDArr.data⟩ else none)) := by
  have hac : ∀ r, (a r).ascontiguous = a r := fun r => ascontiguous_of_ne (by rw [hs r]; simp)
  have hlen : ∀ r, (a r).data.length = rows r * shapeSize tail := by
    intro r; have := hwf r; unfold NDArr.WF at this; rw [this, hs r]; rfl
  have hsz : (List.ofFn rows).map (fun s => s * shapeSize tail) =
      (List.ofFn a).map fun a => a.data.length := by
    rw [List.map_ofFn, List.map_ofFn]; congr 1; funext r; exact (hlen r).symm
  unfold gathervRows
  refine Runs.bind (v := fun r => some (a r)) (Runs.lift ?_) ?_
  · intro r; simp [hx, checkValid, hac]
  refine Runs.bind (v := a) (Runs.lift fun _ => rfl) ?_
  refine Runs.bind (v := rows) (Runs.lift ?_) ?_
  · intro r; simp [hs r]
  refine Runs.bind (v := fun r => if r.val = 0 then .nats (List.ofFn rows) else .none)
    (Runs.call (.gather, 0) hn (fun _ => rfl) ?_) ?_
  · intro r
    simp only [deliver, hn, if_true, vals_gather]
    split <;> rfl
  refine Runs.bind (v := fun r => if r.val = 0 then .nat (List.ofFn rows).sum else .nat 0)
    (Runs.call (.reduceSum, 0) hn (fun _ => rfl) ?_) ?_
  · intro r
    simp only [deliver, hn, if_true, vals_reduce]
    split <;> rfl
  refine Runs.bind (v := fun r => if r.val = 0 then
      some (NDArr.empty ((List.ofFn rows).sum :: tail) d, (List.ofFn a).map (fun a => a.data.length),
        offsets 0 ((List.ofFn a).map fun a => a.data.length)) else none) (Runs.lift ?_) ?_
  · intro r
    by_cases hr : r.val = 0
    · simp only [hr, if_true, hs r, hd r, List.tail_cons, hsz, disps_eq]
    · simp [hr]
  refine Runs.bind (v := fun _ => ty) (Runs.lift ?_) ?_
  · intro r; rw [hd r, hty]
  have htyd := np2mpi_ok hty
  subst htyd
  refine Runs.bind (v := fun r => if r.val = 0 then
      .arr ⟨(List.ofFn rows).sum :: tail, ty, (List.ofFn a).flatMap NDArr.data⟩ else .none)
    (Runs.call (.gatherv, 0) hn (fun _ => rfl) ?_) ?_
  · intro r
    simp only [deliver, hn, if_true]
    by_cases hr : r.val = 0
    · simp only [hr, if_true, sends_ofFn]
      have hall : ∀ b ∈ List.ofFn a, b.dtype = ty := by
        intro b hb
        rw [List.mem_ofFn] at hb
        obtain ⟨r, rfl⟩ := hb
        exact hd r
      have := placeAll_append ty (List.ofFn a) hall []
        (NDArr.empty ((List.ofFn rows).sum :: tail) ty).data ?_
      · simp only [List.nil_append, List.length_nil] at this
        rw [this]
        rfl
      · rw [← hsz]
        simp only [NDArr.empty, List.length_replicate, shapeSize_pos_cons]
        rw [sum_map_mul]
    · simp [hr]
  · refine (Runs.ret (fun r => if r.val = 0 then
      some (NDArr.mk ((List.ofFn rows).sum :: tail) ty ((List.ofFn a).flatMap NDArr.data))
        else none)).of_eq ?_
    intro r
    by_cases hr : r.val = 0
    · simp [hr]; rfl
    · simp [hr]; rfl

end Verif.MpiUtils
