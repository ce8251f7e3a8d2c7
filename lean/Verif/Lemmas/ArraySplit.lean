import Verif.Py.ArraySplit
import Mathlib.Data.List.OfFn
import Mathlib.Tactic.Common
import Mathlib.Tactic.Ring
/-! Facts about `np.array_split`. -/
namespace Verif.Py

theorem splitStart_zero (N k : Nat) : splitStart N k 0 = 0 := by simp [splitStart]

theorem splitStart_last (N k : Nat) (hk : 0 < k) : splitStart N k k = N := by
  unfold splitStart
  rw [Nat.min_eq_right (Nat.le_of_lt (Nat.mod_lt N hk))]
  exact Nat.div_add_mod N k

theorem splitStart_succ (N k i : Nat) :
    splitStart N k (i + 1) = splitStart N k i + N / k + if i < N % k then 1 else 0 := by
  unfold splitStart
  rw [Nat.succ_mul]
  split <;> omega

theorem splitStart_le_succ (N k i : Nat) : splitStart N k i ≤ splitStart N k (i + 1) := by
  rw [splitStart_succ, Nat.add_assoc]; exact Nat.le_add_right _ _

theorem splitStart_mono (N k : Nat) : Monotone (splitStart N k) :=
  monotone_nat_of_le_succ (splitStart_le_succ N k)

theorem splitStart_le (N k i : Nat) (hk : 0 < k) (hi : i ≤ k) : splitStart N k i ≤ N := by
  have := splitStart_mono N k hi
  rwa [splitStart_last N k hk] at this

theorem flatten_slices {α : Type} (xs : List α) (f : Nat → Nat) (hf : ∀ i, f i ≤ f (i + 1))
    (h0 : f 0 = 0) (m : Nat) :
    (List.ofFn fun r : Fin m => (xs.drop (f r)).take (f (r + 1) - f r)).flatten =
      xs.take (f m) := by
  induction m with
  | zero => simp [h0]
  | succ m ih =>
    rw [List.ofFn_succ']
    simp only [List.concat_eq_append, List.flatten_append, Fin.val_castSucc, Fin.val_last]
    rw [ih]
    simp only [List.flatten_cons, List.flatten_nil, List.append_nil]
    have := hf m
    obtain ⟨d, hd⟩ := Nat.exists_eq_add_of_le this
    rw [hd, Nat.add_sub_cancel_left, List.take_add]

/-- The parts, one after another, are the whole. -/
theorem flatten_splitPart {α : Type} (xs : List α) (k : Nat) (hk : 0 < k) :
    (List.ofFn fun r : Fin k => splitPart xs k r).flatten = xs := by
  have := flatten_slices xs (splitStart xs.length k) (splitStart_le_succ _ _)
    (splitStart_zero _ _) k
  rw [splitStart_last _ _ hk, List.take_length] at this
  exact this

theorem splitPart_length {α : Type} (xs : List α) (k i : Nat) (hk : 0 < k) (hi : i < k) :
    (splitPart xs k i).length = xs.length / k + if i < xs.length % k then 1 else 0 := by
  have h1 := splitStart_le xs.length k (i + 1) hk hi
  have h2 := splitStart_succ xs.length k i
  unfold splitPart
  rw [List.length_take, List.length_drop]
  generalize hq : xs.length / k = q at *
  split at h2 <;> rename_i h <;> simp only [h, if_true, if_false] <;> omega

theorem splitPart_range (N k i : Nat) (hk : 0 < k) (hi : i < k) :
    splitPart (List.range N) k i =
      List.range' (splitStart N k i) (splitStart N k (i + 1) - splitStart N k i) := by
  have h1 := splitStart_le N k (i + 1) hk hi
  have h2 := splitStart_le_succ N k i
  unfold splitPart
  rw [List.length_range, List.range_eq_range', List.drop_range']
  simp only [Nat.zero_add, Nat.mul_one]
  obtain ⟨d, hd⟩ := Nat.exists_eq_add_of_le
    (show splitStart N k (i + 1) - splitStart N k i ≤ N - splitStart N k i by omega)
  rw [hd, ← List.range'_append_1, List.take_append_of_le_length (by simp)]
  simp

theorem splitPart_one {α : Type} (xs : List α) : splitPart xs 1 0 = xs := by
  have := flatten_splitPart xs 1 (by decide)
  simpa using this

theorem mem_splitPart {α : Type} {xs : List α} {k i : Nat} {x : α} (h : x ∈ splitPart xs k i) :
    x ∈ xs := List.mem_of_mem_drop (List.mem_of_mem_take h)

theorem map_splitPart {α β : Type} (f : α → β) (xs : List α) (k i : Nat) :
    (splitPart xs k i).map f = splitPart (xs.map f) k i := by
  simp [splitPart, List.map_take, List.map_drop]

end Verif.Py
