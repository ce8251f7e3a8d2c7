import Verif.Lemmas.Mpi
/-! An executor for worlds, used to compute concrete runs in examples. -/
namespace Verif.Py
variable {K α : Type} {n : Nat}

/-- The collective a process is in. -/
def Prog.coll? : Prog K α → Option (Op K × (Obj K → Prog K α))
  | .coll op k => some (op, k)
  | _ => none

/-- Run a world, at most `fuel` collectives. -/
def exec : Nat → (Fin n → Prog K α) → Option (List (Except PyErr α))
  | 0, W => (List.ofFn fun r => (W r).outcome).mapM id
  | fuel + 1, W =>
    if ∀ r, (W r).outcome.isSome then (List.ofFn fun r => (W r).outcome).mapM id
    else if h : 0 < n ∧ ∀ r, (W r).coll?.isSome then
      let ops := fun r => ((W r).coll?.get (h.2 r)).1
      let k := fun r => ((W r).coll?.get (h.2 r)).2
      if ∀ r, (ops r).tag = (ops ⟨0, h.1⟩).tag then
        exec fuel fun r => Prog.resume (k r) (deliver ops r)
      else none
    else none

theorem mapM_ofFn {β : Type} {f : Fin n → Option β} {l : List β}
    (h : (List.ofFn f).mapM id = some l) (r : Fin n) : f r = l[r.val]? := by
  induction n generalizing l with
  | zero => exact r.elim0
  | succ n ih =>
    rw [List.ofFn_succ] at h
    simp only [List.mapM_cons, id, Option.pure_def, Option.bind_eq_bind,
      Option.bind_eq_some_iff, Option.some.injEq] at h
    obtain ⟨a, ha, as, has, rfl⟩ := h
    cases r using Fin.cases with
    | zero => simp [ha]
    | succ r => simpa using ih has r

theorem coll?_get {p : Prog K α} (h : p.coll?.isSome) :
    p = .coll (p.coll?.get h).1 (p.coll?.get h).2 := by
  cases p with
  | ret a => simp [Prog.coll?] at h
  | fail e => simp [Prog.coll?] at h
  | coll op k => simp [Prog.coll?]

theorem exec_runs {fuel : Nat} {W : Fin n → Prog K α} {l : List (Except PyErr α)}
    (h : exec fuel W = some l) (out : Fin n → Except PyErr α)
    (hout : ∀ r : Fin n, l[r.val]? = some (out r)) : Runs W out := by
  induction fuel generalizing W with
  | zero => exact .done fun r => by rw [mapM_ofFn h r, hout]
  | succ fuel ih =>
    unfold exec at h
    split at h
    · exact .done fun r => by rw [mapM_ofFn h r, hout]
    · split at h
      · rename_i hc
        simp only at h
        split at h
        · rename_i ht
          refine .step (fun r => ((W r).coll?.get (hc.2 r)).1) (fun r => ((W r).coll?.get (hc.2 r)).2)
            _ hc.1 (fun r => ?_) ht (ih h)
          exact coll?_get (hc.2 r)
        · cases h
      · cases h

theorem ret_of_outcome {p : Prog K α} {a : α} (h : p.outcome = some (.ok a)) : p = .ret a := by
  cases p with
  | ret b => simp [Prog.outcome] at h; rw [h]
  | fail e => simp [Prog.outcome] at h
  | coll op k => simp [Prog.outcome] at h

end Verif.Py
