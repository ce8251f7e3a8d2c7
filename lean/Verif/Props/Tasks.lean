import Verif.Lemmas.ArraySplit
import Verif.Model.Fit
import Mathlib.Data.Rat.Defs
/-!
C07: the distribution of tasks over processes.
-/
namespace Verif.Fit
open Verif.Py

/-- **C07**, order and completeness: for any number `N` of tasks and any number `k ≥ 1` of
    processes, the task lists of the processes one after another are `0, 1, …, N-1`. -/
theorem C07_concat (N k : Nat) (hk : 0 < k) :
    (List.ofFn fun r : Fin k => splitPart (List.range N) k r).flatten = List.range N :=
  flatten_splitPart _ k hk

/-- **C07**, exactly one process: each task belongs to the list of exactly one process. -/
theorem C07_exactly_once (N k : Nat) (hk : 0 < k) (t : Nat) (ht : t < N) :
    ∃! r : Fin k, t ∈ splitPart (List.range N) k r := by
  have hmem : t ∈ (List.ofFn fun r : Fin k => splitPart (List.range N) k r).flatten := by
    rw [C07_concat N k hk]; exact List.mem_range.2 ht
  rw [List.mem_flatten] at hmem
  obtain ⟨l, hl, htl⟩ := hmem
  rw [List.mem_ofFn] at hl
  obtain ⟨r, rfl⟩ := hl
  refine ⟨r, htl, ?_⟩
  intro s hs
  simp only [splitPart_range N k _ hk (Fin.is_lt _), List.mem_range'_1] at hs htl
  have hmono := splitStart_mono N k
  have hle := splitStart_le_succ N k
  rcases Nat.lt_trichotomy s.val r.val with h | h | h
  · have := hmono (Nat.succ_le_of_lt h)
    have h2 := hle s.val
    simp only [Nat.succ_eq_add_one] at this
    omega
  · exact Fin.ext h
  · have := hmono (Nat.succ_le_of_lt h)
    have h2 := hle r.val
    simp only [Nat.succ_eq_add_one] at this
    omega

/-- **C07**, contiguity: each process gets a run of consecutive tasks, in order. -/
theorem C07_contiguous (N k : Nat) (hk : 0 < k) (r : Fin k) :
    ∃ start len, splitPart (List.range N) k r = List.range' start len :=
  ⟨_, _, splitPart_range N k r hk r.2⟩

/-- **C07**, balance: the numbers of tasks of two processes differ by at most one. -/
theorem C07_balanced (N k : Nat) (hk : 0 < k) (r s : Fin k) :
    (splitPart (List.range N) k r).length ≤ (splitPart (List.range N) k s).length + 1 := by
  rw [splitPart_length _ _ _ hk r.2, splitPart_length _ _ _ hk s.2]
  split <;> split <;> omega

/-- **C07** for pairs: with `A` bootstraps and `B` parameters (or supports), every pair `(a, b)` is
    the task of exactly one process, where a task `t` stands for the pair `(t / B, t % B)`. -/
theorem C07_pairs (A B k : Nat) (hk : 0 < k) (a b : Nat) (ha : a < A) (hb : b < B) :
    ∃! r : Fin k, (a, b) ∈
      (splitPart (List.range (A * B)) k r).map fun t => (t / B, t % B) := by
  have ht : a * B + b < A * B := by
    have : (a + 1) * B ≤ A * B := Nat.mul_le_mul_right B ha
    rw [Nat.succ_mul] at this
    omega
  have hiff : ∀ r : Fin k, ((a, b) ∈
      (splitPart (List.range (A * B)) k r).map fun t => (t / B, t % B)) ↔
      a * B + b ∈ splitPart (List.range (A * B)) k r := by
    intro r
    rw [List.mem_map]
    constructor
    · rintro ⟨t, hmem, he⟩
      simp only [Prod.mk.injEq] at he
      have : t = a * B + b := by
        rw [← he.1, ← he.2, Nat.mul_comm]; exact (Nat.div_add_mod t B).symm
      rwa [← this]
    · intro h
      refine ⟨_, h, ?_⟩
      rw [Nat.mul_comm a B, Nat.mul_add_div (by omega), Nat.mul_add_mod,
        Nat.mod_eq_of_lt hb, Nat.div_eq_of_lt hb, Nat.add_zero]
  simp only [hiff]
  exact C07_exactly_once (A * B) k hk _ ht

/-- The task lists that `fit` really uses are these parts: selection tasks are pairs when there are
    more processes than bootstraps, and whole bootstraps otherwise. -/
theorem C07_used {K G S M RP : Type} (env : Env K G S M RP) (size : Nat) :
    env.selTasks size = List.range
      (if env.nBootsSel < size then env.nBootsSel * env.nReg else env.nBootsSel) := by
  simp [Env.selTasks, Env.fine]

example : (List.ofFn fun r : Fin 3 => splitPart (List.range 8) 3 r) =
    [[0, 1, 2], [3, 4, 5], [6, 7]] := by decide
example : (0 : Nat) < 5 ∧ (List.ofFn fun r : Fin 5 => splitPart (List.range 3) 5 r) =
    [[0], [1], [2], [], []] := by decide

end Verif.Fit
