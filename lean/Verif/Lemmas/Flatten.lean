import Mathlib.Data.List.Basic
/-! Indexing into the concatenation of lists of equal length (C-order reshape). -/
namespace Verif

theorem flatten_length_uniform {α : Type} {rows : List (List α)} {m : Nat}
    (h : ∀ r ∈ rows, r.length = m) : rows.flatten.length = rows.length * m := by
  induction rows with
  | nil => simp
  | cons r rows ih =>
    rw [List.flatten_cons, List.length_append, ih (fun s hs => h s (List.mem_cons_of_mem _ hs)),
      h r List.mem_cons_self, List.length_cons, Nat.succ_mul, Nat.add_comm]

theorem flatten_getElem?_uniform {α : Type} {rows : List (List α)} {m : Nat}
    (h : ∀ r ∈ rows, r.length = m) (i k : Nat) (hk : k < m) :
    rows.flatten[i * m + k]? = (rows[i]?).bind fun r => r[k]? := by
  induction rows generalizing i with
  | nil => simp
  | cons r rows ih =>
    have hr : r.length = m := h r List.mem_cons_self
    cases i with
    | zero =>
      simp only [List.flatten_cons, Nat.zero_mul, Nat.zero_add, List.getElem?_cons_zero,
        Option.bind_some]
      rw [List.getElem?_append_left (by omega)]
    | succ i =>
      rw [List.flatten_cons, List.getElem?_append_right (by rw [hr, Nat.succ_mul]; omega)]
      have : (i + 1) * m + k - r.length = i * m + k := by rw [hr, Nat.succ_mul]; omega
      rw [this, ih (fun s hs => h s (List.mem_cons_of_mem _ hs))]
      simp

theorem flatten_getD_uniform {α : Type} {rows : List (List α)} {m : Nat}
    (h : ∀ r ∈ rows, r.length = m) (i k : Nat) (hk : k < m) (d : α) :
    rows.flatten.getD (i * m + k) d = (rows.getD i []).getD k d := by
  rw [List.getD_eq_getElem?_getD, flatten_getElem?_uniform h i k hk]
  cases hi : rows[i]? with
  | none => simp [List.getD_eq_getElem?_getD, hi]
  | some r => simp [List.getD_eq_getElem?_getD, hi]

end Verif
