import Verif.Model.Sse
import Verif.Spec.Sse
import Verif.Lemmas.Owlqn
import Mathlib.Algebra.BigOperators.Group.Finset.Basic
import Mathlib.Algebra.BigOperators.Fin
import Mathlib.Algebra.BigOperators.Intervals
import Mathlib.Tactic.Ring
import Mathlib.Tactic.Linarith
/-!
The loops of the SSE routines.
-/
namespace Verif.Sse
open Verif.Spec.Sse

variable {K : Type}

/-- A loop whose body rewrites the block of `s` entries at `i`, entry by entry. -/
theorem forBy_block {n s : Nat} (hs : 0 < s) {body : Nat → (Nat → K) → Nat → K} {g : Nat → K → K}
    (hb : ∀ i y k, body i y k = if i ≤ k ∧ k < i + s then g k (y k) else y k) (q i : Nat) (hn : n = i + q * s)
    (y : Nat → K) (k : Nat) :
    forBy n s body i y k = if i ≤ k ∧ k < n then g k (y k) else y k := by
  induction q generalizing i y with
  | zero =>
    rw [forBy, dif_neg (by omega), if_neg (by omega)]
  | succ q ih =>
    have e : n = i + s + q * s := by rw [hn, Nat.succ_mul]; omega
    have hlt : i < n := by omega
    rw [forBy, dif_pos ⟨hlt, hs⟩, ih (i + s) e, hb]
    have hq : i + s ≤ n := by omega
    by_cases h1 : i + s ≤ k ∧ k < n
    · rw [if_pos h1, if_neg (by omega), if_pos (by omega)]
    · rw [if_neg h1]
      by_cases h2 : i ≤ k ∧ k < i + s
      · rw [if_pos h2, if_pos (by omega)]
      · rw [if_neg h2, if_neg (by omega)]

/-- Four stores. -/
theorem store4 (y : Nat → K) (i : Nat) (f : Nat → K) (k : Nat) :
    store (store (store (store y i (f i, f (i + 1))) (i + 2) (f (i + 2), f (i + 2 + 1))) (i + 4) (f (i + 4), f (i + 4 + 1)))
      (i + 6) (f (i + 6), f (i + 6 + 1)) k = if i ≤ k ∧ k < i + 8 then f k else y k := by
  simp only [store]
  split_ifs <;> first | rfl | omega | (congr 1; omega)

/-- Two stores; the second pair is loaded after the first store. -/
theorem store2 (y : Nat → K) (i : Nat) (f : Nat → K) (k : Nat) :
    store (store y i (f i, f (i + 1))) (i + 2) (f (i + 2), f (i + 2 + 1)) k = if i ≤ k ∧ k < i + 4 then f k else y k := by
  simp only [store]
  split_ifs <;> first | rfl | omega | (congr 1; omega)

variable [Field K]

/-- The partial sums of `vecdot`. -/
theorem forBy_dot {n : Nat} (x y : Nat → K) (q i : Nat) (hn : n = i + q * 4) (r : (K × K) × (K × K)) :
    let r' := forBy n 4 (fun i (r : (K × K) × (K × K)) =>
      (addPd r.1 (mulPd (load x i) (load y i)), addPd r.2 (mulPd (load x (i + 2)) (load y (i + 2))))) i r
    r'.1.1 + r'.2.1 + (r'.1.2 + r'.2.2) = r.1.1 + r.2.1 + (r.1.2 + r.2.2) + ∑ k ∈ Finset.Ico i n, x k * y k := by
  induction q generalizing i r with
  | zero =>
    rw [forBy, dif_neg (by omega), Finset.Ico_eq_empty (by omega)]
    simp
  | succ q ih =>
    have e : n = i + 4 + q * 4 := by omega
    rw [forBy, dif_pos (by omega)]
    have := ih (i + 4) e (addPd r.1 (mulPd (load x i) (load y i)), addPd r.2 (mulPd (load x (i + 2)) (load y (i + 2))))
    simp only at this ⊢
    rw [this, Finset.sum_eq_sum_Ico_succ_bot (by omega : i < n), Finset.sum_eq_sum_Ico_succ_bot (by omega : i + 1 < n),
      Finset.sum_eq_sum_Ico_succ_bot (by omega : i + 1 + 1 < n),
      Finset.sum_eq_sum_Ico_succ_bot (by omega : i + 1 + 1 + 1 < n)]
    simp only [addPd, mulPd, load, show i + 1 + 1 = i + 2 from rfl, show i + 2 + 1 = i + 3 from rfl,
      show i + 3 + 1 = i + 4 from rfl]
    ring

/-- `vecdot` on a multiple of eight entries. -/
theorem vecdot_sum {n : Nat} (h8 : 8 ∣ n) (x y : Nat → K) : vecdot x y n = ∑ k ∈ Finset.range n, x k * y k := by
  obtain ⟨q, rfl⟩ := h8
  have := forBy_dot (n := 8 * q) x y (2 * q) 0 (by omega) (set1 0, set1 0)
  simp only [set1, add_zero, zero_add] at this
  rw [Finset.range_eq_Ico, ← this]
  simp only [vecdot, set1, addPd]

end Verif.Sse
