import Verif.Lemmas.Poisson
/-! Helper lemmas for the iterations of the coordinate-descent Poisson solver. -/
namespace Verif.Poisson
open Verif.Py Verif.Scaling Verif.Spec.Grid Verif.Spec.Poisson
variable {n p : Nat}

theorem exp_neg_le {x : ℝ} (hx : 0 ≤ x) : Real.exp (-x) ≤ 1 - x + x ^ 2 / 2 := by
  have h1 := Real.quadratic_le_exp_of_nonneg hx
  have h2 : Real.exp (-x) * Real.exp x = 1 := by rw [← Real.exp_add]; simp
  have h3 := Real.exp_pos (-x)
  have h4 : 0 < 1 + x + x ^ 2 / 2 := by positivity
  have h5 : Real.exp (-x) * (1 + x + x ^ 2 / 2) ≤ 1 := by nlinarith
  have h6 : 1 ≤ (1 - x + x ^ 2 / 2) * (1 + x + x ^ 2 / 2) := by nlinarith [sq_nonneg (x ^ 2)]
  exact le_of_mul_le_mul_right (h5.trans h6) h4

theorem exp_gt_quad {x : ℝ} (hx : 2 ≤ x) : 1 + x + x ^ 2 < Real.exp x := by
  have h0 : 0 ≤ x := by linarith
  have h := Real.sum_le_exp_of_nonneg h0 6
  simp only [Finset.sum_range_succ, Finset.sum_range_zero, Nat.factorial] at h
  norm_num at h
  have h2 : 4 ≤ x ^ 2 := by nlinarith
  have h3 : 8 ≤ x ^ 3 := by nlinarith
  have e3 : 2 * x ^ 2 ≤ x ^ 3 := by nlinarith
  have e4 : 4 * x ^ 2 ≤ x ^ 4 := by nlinarith
  have e5 : 0 < x ^ 5 := by positivity
  nlinarith

/-- The update of the intercept, as a step from the current one. -/
theorem intercept_step [NeZero n] (pen : Pen) (hfi : pen.fi = true) (X : Fin n → Fin p → ℝ) (y : Fin n → ℝ)
    (coef : Fin p → ℝ) (b c : ℝ) (hc : ∑ i, Real.exp (c + ∑ j, X i j * coef j) = ∑ i, y i) :
    cdIntercept pen X (adjustedResponse X y coef b).1 (adjustedResponse X y coef b).2 coef =
      b + Real.exp (c - b) - 1 := by
  have hw : ∀ i, (adjustedResponse X y coef b).1 i = Real.exp (b + ∑ j, X i j * coef j) := fun _ => rfl
  have hs : 0 < ∑ i, (adjustedResponse X y coef b).1 i :=
    Finset.sum_pos (fun i _ => by rw [hw]; exact Real.exp_pos _) ⟨0, Finset.mem_univ _⟩
  rw [cdIntercept, if_pos hfi, div_eq_iff hs.ne']
  have h3 : ∀ i, (adjustedResponse X y coef b).1 i * ((adjustedResponse X y coef b).2 i - dot (X i) coef) =
      (b - 1) * (adjustedResponse X y coef b).1 i + y i := by
    intro i
    have hzi : (adjustedResponse X y coef b).2 i = b + dot (X i) coef + y i / (adjustedResponse X y coef b).1 i - 1 := rfl
    rw [hzi]
    have : (adjustedResponse X y coef b).1 i ≠ 0 := by rw [hw]; exact (Real.exp_pos _).ne'
    field_simp
    ring
  rw [Finset.sum_congr rfl fun i _ => h3 i, Finset.sum_add_distrib, ← Finset.mul_sum]
  have h4 : ∑ i, y i = Real.exp (c - b) * ∑ i, (adjustedResponse X y coef b).1 i := by
    rw [← hc, Finset.mul_sum]
    refine Finset.sum_congr rfl fun i _ => ?_
    rw [hw, ← Real.exp_add]
    congr 1
    ring
  rw [h4]
  ring

/-- The objective increases with the intercept to the right of the best one. -/
theorem obj_right [NeZero n] (X : Fin n → Fin p → ℝ) (y : Fin n → ℝ) (lam alpha : ℝ) (coef : Fin p → ℝ) {c b b' : ℝ}
    (hc : ∑ i, Real.exp (c + ∑ j, X i j * coef j) = ∑ i, y i) (h1 : c ≤ b') (h2 : b' ≤ b) :
    poisObj X y lam alpha b' coef ≤ poisObj X y lam alpha b coef := by
  have hn : (0 : ℝ) < n := by exact_mod_cast Nat.pos_of_ne_zero (NeZero.ne n)
  unfold poisObj
  have key : ∑ i, (Real.exp (b' + ∑ j, X i j * coef j) - y i * (b' + ∑ j, X i j * coef j)) ≤
      ∑ i, (Real.exp (b + ∑ j, X i j * coef j) - y i * (b + ∑ j, X i j * coef j)) := by
    have h3 : ∀ i, Real.exp (b' + ∑ j, X i j * coef j) - y i * (b' + ∑ j, X i j * coef j) +
        (b - b') * (Real.exp (c + ∑ j, X i j * coef j) - y i) ≤
        Real.exp (b + ∑ j, X i j * coef j) - y i * (b + ∑ j, X i j * coef j) := by
      intro i
      have h4 := Real.add_one_le_exp (b - b')
      have h5 : Real.exp (b + ∑ j, X i j * coef j) =
          Real.exp (b' + ∑ j, X i j * coef j) * Real.exp (b - b') := by
        rw [← Real.exp_add]; congr 1; ring
      have h6 : Real.exp (c + ∑ j, X i j * coef j) ≤ Real.exp (b' + ∑ j, X i j * coef j) :=
        Real.exp_le_exp.2 (by linarith)
      have h7 := Real.exp_pos (b' + ∑ j, X i j * coef j)
      have h8 : 0 ≤ b - b' := by linarith
      rw [h5]
      nlinarith [mul_le_mul_of_nonneg_left h6 h8, mul_le_mul_of_nonneg_left h4 h7.le]
    have h9 := Finset.sum_le_sum fun i (_ : i ∈ Finset.univ) => h3 i
    rw [Finset.sum_add_distrib, ← Finset.mul_sum, Finset.sum_sub_distrib (f := fun i => Real.exp (c + _)), hc,
      sub_self, mul_zero, add_zero] at h9
    exact h9
  have := mul_le_mul_of_nonneg_left key (by positivity : (0 : ℝ) ≤ 1 / n)
  linarith

end Verif.Poisson
