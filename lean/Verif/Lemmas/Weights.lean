import Verif.Model.Logistic
import Verif.Model.Poisson
import Verif.Spec.Weights
import Mathlib.Algebra.BigOperators.Ring.Finset
import Mathlib.Algebra.Order.BigOperators.Group.Finset
namespace Verif.Weights
open Verif.Weights.Spec

variable {n N : Nat}

theorem sum_rep {rep : Fin N → Fin n} {m : Fin n → Nat} (h : Repeats rep m) (f : Fin n → ℝ) :
    ∑ j, f (rep j) = ∑ i, (m i : ℝ) * f i := by
  rw [← Finset.sum_fiberwise (s := Finset.univ) (g := rep)]
  refine Finset.sum_congr rfl fun i _ => ?_
  rw [Finset.sum_congr rfl (g := fun _ => f i) fun j hj => by rw [(Finset.mem_filter.mp hj).2],
    Finset.sum_const, nsmul_eq_mul, h i]

/-- A mean of weighted terms is a multiple of the mean over the repeated rows. -/
theorem mean_rep {rep : Fin N → Fin n} {m : Fin n → Nat} (h : Repeats rep m) (hN : 0 < N)
    (f : Fin n → ℝ) : (∑ i, (m i : ℝ) * f i) / n = (N : ℝ) / n * ((∑ j, f (rep j)) / N) := by
  have hN' : (N : ℝ) ≠ 0 := Nat.cast_ne_zero.mpr hN.ne'
  rw [sum_rep h]
  field_simp

theorem rows_pos (rep : Fin N → Fin n) (hN : 0 < N) : 0 < n :=
  lt_of_le_of_lt (Nat.zero_le _) (rep ⟨0, hN⟩).isLt

/-- A positive multiple has the same minimisers. -/
theorem minimiser_smul {α : Type} {f g : α → ℝ} {c : ℝ} (hc : 0 < c) (h : ∀ x, f x = c * g x) (x : α) :
    Minimiser f x ↔ Minimiser g x := by
  refine forall_congr' fun z => ?_
  rw [h, h]
  exact mul_le_mul_iff_right₀ hc

end Verif.Weights
