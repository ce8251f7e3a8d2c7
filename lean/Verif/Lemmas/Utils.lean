import Verif.Model.Utils
import Verif.Spec.Utils
import Mathlib.Topology.Algebra.Order.Field
import Mathlib.Analysis.SpecificLimits.Basic
import Mathlib.Algebra.BigOperators.Field
import Mathlib.Algebra.BigOperators.Fin
import Mathlib.Analysis.Complex.ExponentialBounds
/-! Helper lemmas for the utility functions. -/
namespace Verif.Utils
open Verif.Py Verif.Spec.Utils

theorem softmaxShift_nonpos {n : Nat} [NeZero n] (y : Fin n → ℝ) (i : Fin n) :
    softmaxShift y i ≤ 0 := by
  have := Finset.le_sup' y (Finset.mem_univ i)
  unfold softmaxShift
  linarith

theorem softmax_eq {n : Nat} [NeZero n] (y : Fin n → ℝ) (i : Fin n) :
    softmax y i = Real.exp (y i) / ∑ j, Real.exp (y j) := by
  unfold softmax softmaxShift
  generalize Finset.univ.sup' Finset.univ_nonempty y = m
  simp only [Real.exp_sub, ← Finset.sum_div]
  have := Real.exp_ne_zero m
  field_simp

theorem sum_exp_pos {n : Nat} [NeZero n] (y : Fin n → ℝ) : 0 < ∑ j, Real.exp (y j) :=
  Finset.sum_pos (fun _ _ => Real.exp_pos _) Finset.univ_nonempty

theorem sigmoid_eq (x : ℝ) : sigmoid x = 1 / (1 + Real.exp (-x)) := by
  have h : (0 : ℝ) < 1 + Real.exp (-x) := by have := Real.exp_pos (-x); linarith
  unfold sigmoid logaddexp
  rw [Real.exp_zero, Real.exp_neg, Real.exp_log h, one_div]

theorem aicc_correction {k k' n : Nat} (h : k ≤ k') (hn : k' + 1 < n) :
    2 * ((k : ℝ) ^ 2 + k) / ((n : ℝ) - k - 1) ≤ 2 * ((k' : ℝ) ^ 2 + k') / ((n : ℝ) - k' - 1) := by
  have h1 : (k : ℝ) ≤ k' := by exact_mod_cast h
  have h2 : (k' : ℝ) + 1 < n := by exact_mod_cast hn
  have h0 : (0 : ℝ) ≤ k := Nat.cast_nonneg k
  apply div_le_div₀
  · positivity
  · nlinarith
  · linarith
  · linarith

theorem gaussLL_eq {n : Nat} (e : Fin n → ℝ) (v : ℝ) :
    gaussLL e v = -(n : ℝ) / 2 * Real.log (2 * Real.pi * v) - (∑ i, e i ^ 2) / (2 * v) := by
  unfold gaussLL
  rw [Finset.sum_sub_distrib, Finset.sum_const, ← Finset.sum_div]
  simp only [Finset.card_univ, Fintype.card_fin, nsmul_eq_mul]
  ring

theorem foldr_addExt (xs : List ℝ) :
    (xs.map Ext.fin).foldr addExt (.fin 0) = .fin xs.sum := by
  induction xs with
  | nil => simp
  | cons x xs ih => simp [ih, addExt]

/-- With positive predictions no special value arises. -/
theorem llPoisson_pos {n : Nat} [NeZero n] (y p : Fin n → ℝ) (hp : ∀ i, 0 < p i) :
    llPoisson y p = .fin (mean fun i => y i * Real.log (p i) - p i) := by
  unfold llPoisson
  rw [if_neg (by intro h; exact (hp 0).ne' (h 0))]
  have : (fun i => poisTerm (y i) (p i)) = fun i => .fin (y i * Real.log (p i) - p i) := by
    funext i
    rw [poisTerm, if_neg (not_lt.2 (hp i).le), if_neg (hp i).ne']
  rw [this, meanExt]
  have hm : (List.ofFn fun i => (Ext.fin (y i * Real.log (p i) - p i) : Ext ℝ)) =
      (List.ofFn fun i => y i * Real.log (p i) - p i).map Ext.fin := by
    rw [List.map_ofFn]; rfl
  rw [hm, foldr_addExt, List.length_map, List.length_ofFn, List.sum_ofFn, divExt, mean]

theorem pois_le {y p : ℝ} (hy : 0 ≤ y) (hp : 0 < p) :
    y * Real.log p - p ≤ y * Real.log y - y := by
  rcases hy.eq_or_lt with h | h
  · rw [← h]; simp [hp.le]
  · have h1 := Real.log_le_sub_one_of_pos (div_pos hp h)
    rw [Real.log_div hp.ne' h.ne'] at h1
    have h2 : y * (Real.log p - Real.log y) ≤ y * (p / y - 1) := mul_le_mul_of_nonneg_left h1 h.le
    have h3 : y * (p / y - 1) = p - y := by field_simp
    linarith

theorem construct_copies (name : List Char) (rank size k : Nat) (reg : Registry) :
    copies (construct name rank size k reg) (loggerName name rank size) =
      reg (loggerName name rank size) + k := by
  induction k generalizing reg with
  | zero => rfl
  | succ k ih =>
    rw [construct, ih]
    simp only [checkLogger, if_true]
    omega

theorem str_length {r : Nat} (h : r ≠ 0) : (str r).length = Nat.log 10 r + 1 := by
  rw [str, if_neg h, List.length_reverse, List.length_map, Nat.length_digits 10 r (by norm_num) h]

theorem str_length_le {r size : Nat} (h : r < size) : (str r).length ≤ Nat.log 10 size + 1 := by
  by_cases hr : r = 0
  · subst hr; simp [str]
  · rw [str_length hr]
    exact Nat.succ_le_succ (Nat.log_mono_right h.le)

theorem char_inj {a b : Nat} (ha : a < 10) (hb : b < 10)
    (h : Char.ofNat (48 + a) = Char.ofNat (48 + b)) : a = b := by
  revert h
  interval_cases a <;> interval_cases b <;> decide

theorem str_noblank {r : Nat} : ' ' ∉ str r := by
  unfold str
  split
  · decide
  · intro h
    rw [List.mem_reverse, List.mem_map] at h
    obtain ⟨d, hd, he⟩ := h
    have := Nat.digits_lt_base (by norm_num : 1 < 10) hd
    revert he
    interval_cases d <;> decide

theorem str_inj {r s : Nat} (h : str r = str s) : r = s := by
  have key : ∀ {r s : Nat}, r = 0 → str r = str s → s = 0 := by
    intro r s hr h
    by_contra hs
    have h1 := str_length hs
    rw [← h, hr] at h1
    have h2 : Nat.log 10 s = 0 := by simpa [str] using h1.symm
    have h3 : s < 10 := by
      rcases Nat.log_eq_zero_iff.1 h2 with h | h
      · exact h
      · omega
    subst hr
    revert h hs
    interval_cases s <;> decide
  by_cases hr : r = 0
  · rw [hr, key hr h]
  by_cases hs : s = 0
  · exact absurd (key hs h.symm) hr
  unfold str at h
  rw [if_neg hr, if_neg hs, List.reverse_inj] at h
  apply Nat.digits_inj_iff (b := 10).1
  have : ∀ (xs ys : List Nat), (∀ x ∈ xs, x < 10) → (∀ y ∈ ys, y < 10) →
      (xs.map fun d => Char.ofNat (48 + d)) = (ys.map fun d => Char.ofNat (48 + d)) → xs = ys := by
    intro xs
    induction xs with
    | nil => intro ys _ _ h; cases ys with
      | nil => rfl
      | cons y ys => simp at h
    | cons x xs ih => intro ys hx hy h; cases ys with
      | nil => simp at h
      | cons y ys =>
        simp only [List.map_cons, List.cons.injEq] at h
        rw [char_inj (hx x List.mem_cons_self) (hy y List.mem_cons_self) h.1,
          ih ys (fun x h => hx x (List.mem_cons_of_mem _ h))
            (fun y h => hy y (List.mem_cons_of_mem _ h)) h.2]
  exact this _ _ (fun x hx => Nat.digits_lt_base (by norm_num) hx)
    (fun x hx => Nat.digits_lt_base (by norm_num) hx) h

end Verif.Utils
