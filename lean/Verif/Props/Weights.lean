import Verif.Lemmas.Weights
/-!
Sample weights in the logistic and Poisson objectives.
-/
namespace Verif.Weights
open Verif.Weights.Spec Verif.Logistic Verif.Poisson

variable {n N p k : Nat}

/-- C109, binary classifier: integer weights amount to repeated rows, up to a factor and with the penalty
    multiplied by the ratio of the numbers of rows.  Missing: the same penalty, see `C109_negation`. -/
theorem C109_binary_partial {rep : Fin N → Fin n} {m : Fin n → Nat} (h : Repeats rep m) (hN : 0 < N)
    (X : Fin n → Fin p → ℝ) (y : Fin n → ℝ) (alpha : ℝ) (mask : Option (Fin p → ℝ)) (w : Fin p → ℝ)
    (b : Option ℝ) :
    let g := binLossGrad (fun j => X (rep j)) (fun j => y (rep j)) (alpha * n / N) mask (fun _ => 1) w b
    binLossGrad X y alpha mask (fun i => (m i : ℝ)) w b =
      ((N : ℝ) / n * g.1, fun j => (N : ℝ) / n * g.2.1 j, g.2.2.map fun v => (N : ℝ) / n * v) := by
  have hN' : (N : ℝ) ≠ 0 := Nat.cast_ne_zero.mpr hN.ne'
  have hn' : (n : ℝ) ≠ 0 := Nat.cast_ne_zero.mpr (rows_pos rep hN).ne'
  have hr : (N : ℝ) / n * (alpha * n / N) = alpha := by field_simp
  intro g
  have hl : ∀ f : Fin n → ℝ, (∑ i, (m i : ℝ) * f i) / n = (N : ℝ) / n * ((∑ j, f (rep j)) / N) :=
    mean_rep h hN
  refine Prod.ext ?_ (Prod.ext ?_ ?_)
  · have e1 := hl fun i => logLogistic (y i * (∑ j, X i j * applyMask mask w j + b.getD 0))
    simp only [g, binLossGrad, one_mul, neg_div, e1]
    linear_combination (-(1 / 2 * ∑ j, applyMask mask w j * applyMask mask w j)) * hr
  · have e2 : ∀ j, (∑ i, X i j * ((m i : ℝ) *
        (expit (y i * (∑ j, X i j * applyMask mask w j + b.getD 0)) - 1) * y i)) / n =
        (N : ℝ) / n * ((∑ l, X (rep l) j *
          (1 * (expit (y (rep l) * (∑ j, X (rep l) j * applyMask mask w j + b.getD 0)) - 1) * y (rep l))) /
            N) := by
      intro j
      rw [← hl fun i => X i j *
        (1 * (expit (y i * (∑ j, X i j * applyMask mask w j + b.getD 0)) - 1) * y i)]
      congr 1
      exact Finset.sum_congr rfl fun i _ => by ring
    funext j
    simp only [g, binLossGrad]
    cases mask with
    | none =>
      simp only [applyMask] at e2 ⊢
      rw [e2 j]
      linear_combination (-w j) * hr
    | some q =>
      simp only [applyMask] at e2 ⊢
      rw [e2 j]
      linear_combination (-(w j * q j * q j)) * hr
  · cases b with
    | none => rfl
    | some v =>
      simp only [g, binLossGrad, Option.map_some, Option.some.injEq, one_mul]
      rw [← hl fun i => (expit (y i * (∑ j, X i j * applyMask mask w j + (some v).getD 0)) - 1) * y i]
      congr 1
      exact Finset.sum_congr rfl fun i _ => by ring

/-- Row 0 once, row 1 twice. -/
example : Repeats ![(0 : Fin 2), 1, 1] ![1, 2] ∧ 0 < 3 :=
  ⟨fun i => by fin_cases i <;> rfl, by omega⟩

/-- C109, multinomial classifier. -/
theorem C109_multinomial_partial {rep : Fin N → Fin n} {m : Fin n → Nat} (h : Repeats rep m) (hN : 0 < N)
    (X : Fin n → Fin p → ℝ) (Y : Fin n → Fin k → ℝ) (alpha : ℝ) (mask : Option (Fin k → Fin p → ℝ))
    (w : Fin k → Fin p → ℝ) (b : Option (Fin k → ℝ)) :
    let g := multiLossGrad (fun j => X (rep j)) (fun j => Y (rep j)) (alpha * n / N) mask (fun _ => 1) w b
    multiLossGrad X Y alpha mask (fun i => (m i : ℝ)) w b =
      ((N : ℝ) / n * g.1, fun c j => (N : ℝ) / n * g.2.1 c j,
        g.2.2.map fun v c => (N : ℝ) / n * v c) := by
  have hN' : (N : ℝ) ≠ 0 := Nat.cast_ne_zero.mpr hN.ne'
  have hn' : (n : ℝ) ≠ 0 := Nat.cast_ne_zero.mpr (rows_pos rep hN).ne'
  have hr : (N : ℝ) / n * (alpha * n / N) = alpha := by field_simp
  have hl : ∀ f : Fin n → ℝ, (∑ i, (m i : ℝ) * f i) / n = (N : ℝ) / n * ((∑ j, f (rep j)) / N) :=
    mean_rep h hN
  intro g
  set lp : Fin n → Fin k → ℝ := fun i =>
    logProb fun c => ∑ j, X i j * applyMaskM mask w c j + (b.getD fun _ => 0) c with hlp
  refine Prod.ext ?_ (Prod.ext ?_ ?_)
  · have e1 : (∑ i, ∑ c, (m i : ℝ) * Y i c * lp i c) / n =
        (N : ℝ) / n * ((∑ l, ∑ c, 1 * Y (rep l) c * lp (rep l) c) / N) := by
      rw [← hl fun i => ∑ c, 1 * Y i c * lp i c]
      congr 1
      refine Finset.sum_congr rfl fun i _ => ?_
      rw [Finset.mul_sum]
      exact Finset.sum_congr rfl fun c _ => by ring
    simp only [hlp] at e1
    simp only [g, multiLossGrad, neg_div, e1]
    linear_combination (-(1 / 2 * ∑ c, ∑ j, applyMaskM mask w c j ^ 2)) * hr
  · have e2 : ∀ c j, (∑ i, (m i : ℝ) * (Real.exp (lp i c) - Y i c) * X i j) / n =
        (N : ℝ) / n * ((∑ l, 1 * (Real.exp (lp (rep l) c) - Y (rep l) c) * X (rep l) j) / N) := by
      intro c j
      rw [← hl fun i => 1 * (Real.exp (lp i c) - Y i c) * X i j]
      congr 1
      exact Finset.sum_congr rfl fun i _ => by ring
    simp only [hlp] at e2
    funext c j
    simp only [g, multiLossGrad]
    cases mask with
    | none =>
      simp only [applyMaskM] at e2 ⊢
      rw [e2 c j]
      linear_combination (-w c j) * hr
    | some q =>
      simp only [applyMaskM] at e2 ⊢
      rw [e2 c j]
      linear_combination (-(w c j * q c j * q c j)) * hr
  · have e3 : ∀ c, (∑ i, (m i : ℝ) * (Real.exp (lp i c) - Y i c)) / n =
        (N : ℝ) / n * ((∑ l, 1 * (Real.exp (lp (rep l) c) - Y (rep l) c)) / N) := by
      intro c
      rw [← hl fun i => 1 * (Real.exp (lp i c) - Y i c)]
      congr 1
      exact Finset.sum_congr rfl fun i _ => by ring
    simp only [hlp] at e3
    cases b with
    | none => rfl
    | some v =>
      simp only [g, multiLossGrad, Option.map_some, Option.some.injEq]
      funext c
      exact e3 c

example : Repeats ![(1 : Fin 2), 0, 1] ![1, 2] ∧ 0 < 3 :=
  ⟨fun i => by fin_cases i <;> rfl, by omega⟩

/-- C109, Poisson regression with L-BFGS. -/
theorem C109_poisson_partial {rep : Fin N → Fin n} {m : Fin n → Nat} (h : Repeats rep m) (hN : 0 < N)
    (X : Fin n → Fin p → ℝ) (y : Fin n → ℝ) (l2 : ℝ) (w : Fin p → ℝ) (b : Option ℝ) :
    let g := lossGrad (fun j => X (rep j)) (fun j => y (rep j)) (fun _ => 1) (l2 * n / N) w b
    lossGrad X y (fun i => (m i : ℝ)) l2 w b =
      ((N : ℝ) / n * g.1, fun j => (N : ℝ) / n * g.2.1 j, g.2.2.map fun v => (N : ℝ) / n * v) := by
  have hN' : (N : ℝ) ≠ 0 := Nat.cast_ne_zero.mpr hN.ne'
  have hn' : (n : ℝ) ≠ 0 := Nat.cast_ne_zero.mpr (rows_pos rep hN).ne'
  have hr : (N : ℝ) / n * (l2 * n / N) = l2 := by field_simp
  have hl : ∀ f : Fin n → ℝ, (∑ i, (m i : ℝ) * f i) / n = (N : ℝ) / n * ((∑ j, f (rep j)) / N) :=
    mean_rep h hN
  intro g
  refine Prod.ext ?_ (Prod.ext ?_ ?_)
  · have e1 := hl fun i => y i * (b.getD 0 + dot (X i) w) - Real.exp (b.getD 0 + dot (X i) w)
    simp only [g, lossGrad, one_mul, neg_div, e1]
    linear_combination (-(1 / 2 * ∑ j, w j * w j)) * hr
  · funext j
    have e2 : (∑ i, X i j * ((m i : ℝ) * (y i - Real.exp (b.getD 0 + dot (X i) w)))) / n =
        (N : ℝ) / n * ((∑ l, X (rep l) j *
          (1 * (y (rep l) - Real.exp (b.getD 0 + dot (X (rep l)) w)))) / N) := by
      rw [← hl fun i => X i j * (1 * (y i - Real.exp (b.getD 0 + dot (X i) w)))]
      congr 1
      exact Finset.sum_congr rfl fun i _ => by ring
    simp only [g, lossGrad, neg_div, e2]
    linear_combination (-w j) * hr
  · cases b with
    | none => rfl
    | some v =>
      simp only [g, lossGrad, Option.map_some, Option.some.injEq, one_mul]
      have e3 := hl fun i => y i - Real.exp ((some v).getD 0 + dot (X i) w)
      rw [e3]
      ring

/-- A row of weight zero is a row left out. -/
example : Repeats ![(0 : Fin 3), 2, 2, 0] ![2, 0, 2] ∧ 0 < 4 :=
  ⟨fun i => by fin_cases i <;> rfl, by omega⟩

/-- C109 without penalty: the weighted fit and the fit to repeated rows have the same solutions. -/
theorem C109_unpenalised_partial {rep : Fin N → Fin n} {m : Fin n → Nat} (h : Repeats rep m) (hN : 0 < N)
    (X : Fin n → Fin p → ℝ) (y : Fin n → ℝ) (Y : Fin n → Fin k → ℝ) :
    (∀ mask q, Minimiser (fun q : (Fin p → ℝ) × Option ℝ =>
        (binLossGrad X y 0 mask (fun i => (m i : ℝ)) q.1 q.2).1) q ↔
      Minimiser (fun q : (Fin p → ℝ) × Option ℝ =>
        (binLossGrad (fun j => X (rep j)) (fun j => y (rep j)) 0 mask (fun _ => 1) q.1 q.2).1) q) ∧
    (∀ mask q, Minimiser (fun q : (Fin k → Fin p → ℝ) × Option (Fin k → ℝ) =>
        (multiLossGrad X Y 0 mask (fun i => (m i : ℝ)) q.1 q.2).1) q ↔
      Minimiser (fun q : (Fin k → Fin p → ℝ) × Option (Fin k → ℝ) =>
        (multiLossGrad (fun j => X (rep j)) (fun j => Y (rep j)) 0 mask (fun _ => 1) q.1 q.2).1) q) ∧
    (∀ q, Minimiser (fun q : (Fin p → ℝ) × Option ℝ => (lossGrad X y (fun i => (m i : ℝ)) 0 q.1 q.2).1) q ↔
      Minimiser (fun q : (Fin p → ℝ) × Option ℝ =>
        (lossGrad (fun j => X (rep j)) (fun j => y (rep j)) (fun _ => 1) 0 q.1 q.2).1) q) := by
  have hc : 0 < (N : ℝ) / n := div_pos (Nat.cast_pos.mpr hN) (Nat.cast_pos.mpr (rows_pos rep hN))
  refine ⟨fun mask q => minimiser_smul hc (fun q => ?_) q, fun mask q => minimiser_smul hc (fun q => ?_) q,
    fun q => minimiser_smul hc (fun q => ?_) q⟩
  · have := congrArg Prod.fst (C109_binary_partial h hN X y 0 mask q.1 q.2)
    simpa using this
  · have := congrArg Prod.fst (C109_multinomial_partial h hN X Y 0 mask q.1 q.2)
    simpa using this
  · have := congrArg Prod.fst (C109_poisson_partial h hN X y 0 q.1 q.2)
    simpa using this

/-- One row of weight two. -/
example : Repeats ![(0 : Fin 1), 0] ![2] ∧ 0 < 2 :=
  ⟨fun i => by fin_cases i; rfl, by omega⟩

/-- C109 is false with a penalty: one row of weight two, or that row twice; there is a penalty for which
    the gradient at the coefficient 1 vanishes for the repeated rows and not for the weighted one. -/
theorem C109_negation : ∃ (rep : Fin 2 → Fin 1) (m : Fin 1 → Nat) (alpha : ℝ), Repeats rep m ∧ 0 < alpha ∧
    (binLossGrad (fun j => (fun _ _ => 1 : Fin 1 → Fin 1 → ℝ) (rep j)) (fun _ => 1) alpha none (fun _ => 1)
      (fun _ => 1) none).2.1 0 = 0 ∧
    (binLossGrad (fun _ _ => 1 : Fin 1 → Fin 1 → ℝ) (fun _ => 1) alpha none (fun i => (m i : ℝ)) (fun _ => 1)
      none).2.1 0 ≠ 0 := by
  have he : 0 < Real.exp (-1) := Real.exp_pos _
  refine ⟨fun _ => 0, fun _ => 2, 1 - expit 1, fun i => by fin_cases i; rfl, ?_, ?_, ?_⟩
  · unfold expit
    have : 1 / (1 + Real.exp (-1)) < 1 := by
      rw [div_lt_one (by linarith)]; linarith
    linarith
  · simp [binLossGrad, applyMask]
    ring
  · have : expit 1 < 1 := by
      unfold expit
      rw [div_lt_one (by linarith)]; linarith
    simp [binLossGrad, applyMask]
    intro h
    linarith

end Verif.Weights
