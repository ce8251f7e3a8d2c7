import Verif.Lemmas.PoissonDescent
/-!
Iterations of the coordinate-descent Poisson solver and the objective (C138).
-/
namespace Verif.Poisson
open Verif.Py Verif.Scaling Verif.Spec.Grid Verif.Spec.Poisson
variable {n p : Nat}

/-! ### C138 -/

/-- C138 is false: for every data set with a mean response of at least three and every penalty at or above the
    critical one, a cold fit ends after its first iteration, reports convergence, and has a larger objective than
    the starting point (all coefficients and the intercept zero).  The mean it predicts for every sample is
    `exp(ȳ - 1)` instead of `ȳ`. -/
theorem C138_negation [NeZero n] (pen : Pen) (hfi : pen.fi = true) (tol : ℝ) (ht : 0 < tol)
    (maxIter : Nat) (coef0 : Fin (p + 1) → ℝ) (b0 : ℝ) (X : Fin n → Fin (p + 1) → ℝ)
    (y : Fin n → ℝ) (hy : 3 ≤ (∑ i, y i) / n)
    (hcrit : ∀ j, |(∑ i, X i j * (y i - (∑ i, y i) / n)) / n| ≤ pen.l1 * pen.alpha) :
    ∃ b, cd pen tol (maxIter + 1) false coef0 b0 X y = .ok (fun _ => 0, b, true) ∧
      poisObj X y pen.alpha pen.l1 0 (fun _ => 0) < poisObj X y pen.alpha pen.l1 b (fun _ => 0) ∧
      ∀ i, Scaling.predictMean (fun _ => 0) (b : WithBot ℝ) (X i) = Real.exp ((∑ i, y i) / n - 1) := by
  have hn : (0 : ℝ) < n := by exact_mod_cast Nat.pos_of_ne_zero (NeZero.ne n)
  refine ⟨_, cd_first_sweep pen hfi tol ht maxIter coef0 b0 X y hcrit, ?_, fun i => ?_⟩
  · set m := (∑ i, y i) / n with hm
    have hS : ∑ i, y i = n * m := by rw [hm]; field_simp
    have hlin : ∀ b0 : ℝ, poisObj X y pen.alpha pen.l1 b0 (fun _ => 0) = Real.exp b0 - m * b0 := by
      intro b0
      simp only [poisObj, mul_zero, Finset.sum_const_zero, add_zero, abs_zero, ne_eq,
        OfNat.ofNat_ne_zero, not_false_eq_true, zero_pow, Finset.sum_sub_distrib, Finset.sum_const,
        Finset.card_univ, Fintype.card_fin, nsmul_eq_mul, ← Finset.sum_mul, hS]
      field_simp
    rw [hlin, hlin, Real.exp_zero]
    have := exp_gt_quad (show 2 ≤ m - 1 by linarith)
    nlinarith
  · have : poisPred (fun _ : Fin (p + 1) => (0 : ℝ)) (((∑ i, y i) / n - 1 : ℝ) : WithBot ℝ) (X i) =
        (((∑ i, y i) / n - 1 : ℝ) : WithBot ℝ) := by
      unfold poisPred
      rw [← WithBot.coe_add]
      congr 1
      simp
    unfold Scaling.predictMean
    rw [this]
    rfl

/-- The responses 2, 6 with a penalty of one. -/
example : ∃ b, cd ⟨1, 1, true⟩ (1 / 1000) 1000 false ![0] 0 ![![1 / 2], ![-1 / 2]] ![2, 6] = .ok (fun _ => 0, b, true) ∧
    poisObj ![![1 / 2], ![-1 / 2]] ![2, 6] 1 1 0 (fun _ : Fin 1 => 0) <
      poisObj ![![1 / 2], ![-1 / 2]] ![2, 6] 1 1 b (fun _ => 0) := by
  obtain ⟨b, h1, h2, _⟩ := C138_negation (n := 2) (p := 0) ⟨1, 1, true⟩ rfl (1 / 1000) (by norm_num) 999 ![0] 0
    ![![1 / 2], ![-1 / 2]] ![2, 6] (by norm_num [Fin.sum_univ_two]) (fun j => by
      fin_cases j
      norm_num [Fin.sum_univ_two])
  exact ⟨b, h1, h2⟩

/-- C138, what holds of the update of the intercept at the start of an iteration (`c` is the best intercept for the
    current coefficients): the new intercept is never below `c`; and from an intercept that is not below it,
    the update does not increase the objective, goes down by less than one, and leaves at most half the square of
    the distance.  Missing: intercepts below `c`, where the first update may overshoot (see `C138_negation`), and
    the coefficients. -/
theorem C138_intercept_partial [NeZero n] (pen : Pen) (hfi : pen.fi = true) (X : Fin n → Fin p → ℝ) (y : Fin n → ℝ)
    (coef : Fin p → ℝ) (b c : ℝ) (hc : ∑ i, Real.exp (c + ∑ j, X i j * coef j) = ∑ i, y i) (b' : ℝ)
    (hb : b' = (cdSweep pen X (adjustedResponse X y coef b).1 (adjustedResponse X y coef b).2 [] coef).2) :
    c ≤ b' ∧ (c ≤ b → poisObj X y pen.alpha pen.l1 b' coef ≤ poisObj X y pen.alpha pen.l1 b coef ∧
      b - 1 < b' ∧ b' ≤ b ∧ b' - c ≤ (b - c) ^ 2 / 2) := by
  have e := intercept_step pen hfi X y coef b c hc
  have hb' : b' = b + Real.exp (c - b) - 1 := hb.trans e
  have h1 := Real.add_one_le_exp (c - b)
  have h0 : c ≤ b' := by linarith
  refine ⟨h0, fun h => ?_⟩
  have h2 : Real.exp (c - b) ≤ 1 := Real.exp_le_one_iff.2 (by linarith)
  have h3 := Real.exp_pos (c - b)
  have h4 := exp_neg_le (show 0 ≤ b - c by linarith)
  rw [neg_sub] at h4
  exact ⟨obj_right X y _ _ coef hc h0 (by linarith), by linarith, by linarith, by linarith⟩

/-- From the intercept one, with the responses 1, 3 and coefficient zero (the best intercept is `log 2`). -/
example : Real.log 2 ≤ (cdSweep ⟨1, 1, true⟩ ![![1], ![2]] (adjustedResponse ![![1], ![2]] ![1, 3] (fun _ : Fin 1 => 0) 1).1
    (adjustedResponse ![![1], ![2]] ![1, 3] (fun _ => 0) 1).2 [] (fun _ => 0)).2 ∧
    (cdSweep ⟨1, 1, true⟩ ![![1], ![2]] (adjustedResponse ![![1], ![2]] ![1, 3] (fun _ : Fin 1 => 0) 1).1
      (adjustedResponse ![![1], ![2]] ![1, 3] (fun _ => 0) 1).2 [] (fun _ => 0)).2 - Real.log 2 ≤
      (1 - Real.log 2) ^ 2 / 2 := by
  have h := C138_intercept_partial (n := 2) ⟨1, 1, true⟩ rfl ![![1], ![2]] ![1, 3] (fun _ : Fin 1 => 0) 1 (Real.log 2)
    (by simp [Real.exp_log]; norm_num) _ rfl
  have h1 : Real.log 2 ≤ 1 := by
    have := Real.log_le_sub_one_of_pos (show (0 : ℝ) < 2 by norm_num)
    linarith
  exact ⟨h.1, (h.2 h1).2.2.2⟩

end Verif.Poisson
