import Verif.Lemmas.PoissonFloat
/-!
C141: a Poisson fit by coordinate descent of finite data is finite.

Full statement: whatever the finite data and penalties, every number of the fit is finite (`FiniteFit`).  False of the code
(`C141_negation`); it holds, with the values of exact arithmetic, as long as every feature has a nonzero value or there is a
ridge penalty, and `exp` stays in range (`C141_partial`).
-/
namespace Verif.Props.PoissonFloat
open Verif.Py Verif.Poisson Verif.PoissonFloat Verif.Spec.PoissonFloat

variable {n p : Nat}

/-! ### The data of the examples -/

/-- A standardized feature. -/
def exX : Fin 2 → Fin 1 → ℝ := fun i _ => if i = 0 then 1 else -1

/-- Counts `a` and 0. -/
def exY (a : ℝ) : Fin 2 → ℝ := fun i => if i = 0 then a else 0

/-- A lasso penalty of 0.1 with intercept. -/
noncomputable def exPen : Pen := ⟨1 / 10, 1, true⟩

theorem ex_curved : Curved exPen exX := ⟨by norm_num [exPen], fun j => Or.inl ⟨0, by simp [exX]⟩⟩

theorem ex_intercept (a : ℝ) : (iter exPen exX (exY a) 1).2 = a / 2 - 1 := by
  rw [iter_one_intercept (pen := exPen) rfl]
  simp [exY]

theorem ex_coef {a : ℝ} (ha : 1 ≤ a) : (iter exPen exX (exY a) 1).1 = fun _ => a / 2 - 1 / 10 := by
  funext j
  have hj : j = 0 := Subsingleton.elim _ _
  rw [hj, iter_one_zero (pen := exPen) rfl]
  have h1 : (∑ i, exX i 0 * (exY a i - (∑ i, exY a i) / (2 : ℕ))) / (2 : ℕ) = a / 2 := by
    simp [Fin.sum_univ_two, exX, exY]
  have h2 : (∑ i, exX i 0 ^ 2) / ((2 : ℕ) : ℝ) = 1 := by
    simp [exX]
  rw [h1, h2]
  have h3 : (0 : ℝ) < a / 2 := by linarith
  have h4 : (10 : ℝ)⁻¹ < a / 2 := by linarith
  have h5 : |a / 2| = a / 2 := abs_of_pos h3
  simp only [softThreshold, exPen, sign, h3, if_true, one_mul, sub_self, mul_zero, add_zero, div_one, one_div, gt_iff_lt, h4,
    mul_one, h5]

theorem ex_not_stops {a : ℝ} (ha : 1 ≤ a) : ¬ Stops (1 / 10000) (iter exPen exX (exY a)) 0 := by
  intro h
  have := h 0
  rw [ex_coef ha] at this
  simp only [iter, zero_sub, abs_neg] at this
  rw [abs_of_pos (by linarith)] at this
  linarith

/-! ### In range -/

/-- **C141 (partial)**: where every feature has a nonzero value or there is a ridge penalty, and no linear predictor of
    the iterations until the solver stops is beyond the range of `exp`, the fit in floating point is the one of exact
    arithmetic, and finite. -/
theorem C141_partial [NeZero n] (pen : Pen) (lo hi tol : ℝ) (maxIter : Nat) (X : Fin n → Fin p → ℝ) (y : Fin n → ℝ)
    (c0 : Fin p → ℝ) (b0 : ℝ) (hc : Curved pen X)
    (h : ∀ m < maxIter, (∀ k < m, ¬ Stops tol (iter pen X y) k) → InRange lo hi X (iter pen X y m)) :
    cdF lo hi pen tol maxIter X y = asFloats (cd pen tol maxIter false c0 b0 X y) ∧
      (p ≠ 0 → FiniteFit (cdF lo hi pen tol maxIter X y)) := by
  have he := cdF_eq y hc maxIter c0 b0 h
  refine ⟨he, fun hp => ?_⟩
  obtain ⟨r, hr⟩ := cd_cold_ok pen tol hp maxIter c0 b0 X y
  rw [he, hr]
  exact ⟨_, _, _, rfl, trivial, fun _ => trivial⟩

example : cdF (-745) 709 exPen (1 / 10000) 2 exX (exY 2) =
      asFloats (cd exPen (1 / 10000) 2 false (fun _ => 0) 0 exX (exY 2)) ∧
    (1 ≠ 0 → FiniteFit (cdF (-745) 709 exPen (1 / 10000) 2 exX (exY 2))) := by
  refine C141_partial exPen (-745) 709 (1 / 10000) 2 exX (exY 2) (fun _ => 0) 0 ex_curved fun m hm _ => ?_
  have : m = 0 ∨ m = 1 := by omega
  rcases this with rfl | rfl
  · exact inRange_zero (by norm_num) (by norm_num) _ _ _
  · intro i
    simp only [predictor, ex_intercept, ex_coef (show (1 : ℝ) ≤ 2 by norm_num)]
    fin_cases i <;> norm_num [exX, Fin.sum_univ_one]

/-! ### Overflow -/

/-- **C141 (overflow)**: with an intercept, once a linear predictor is above the range the intercept of the fit is NaN,
    and so is every coefficient that was not zero, however many iterations remain; the convergence check never holds
    from there on. -/
theorem C141_overflow [NeZero n] (pen : Pen) (hfi : pen.fi = true) (lo hi tol : ℝ) (maxIter m : Nat)
    (X : Fin n → Fin p → ℝ) (y : Fin n → ℝ) (hp : p ≠ 0) (hc : Curved pen X) (hm : m < maxIter)
    (h : ∀ k < m, InRange lo hi X (iter pen X y k) ∧ ¬ Stops tol (iter pen X y) k) (i : Fin n)
    (hi' : hi < predictor X (iter pen X y m) i) :
    ∃ c v, cdF lo hi pen tol maxIter X y = .ok (c, .nan, v) ∧ (∀ j, (iter pen X y m).1 j ≠ 0 → c j = .nan) ∧
      ((∃ j, (iter pen X y m).1 j ≠ 0) → v = false) :=
  cdF_overflow hfi y hp hc hm h hi'

example : ∃ c v, cdF (-745) 709 exPen (1 / 10000) 1000 exX (exY 2000) = .ok (c, .nan, v) ∧
    (∀ j, (iter exPen exX (exY 2000) 1).1 j ≠ 0 → c j = .nan) ∧
      ((∃ j, (iter exPen exX (exY 2000) 1).1 j ≠ 0) → v = false) := by
  refine C141_overflow exPen rfl (-745) 709 (1 / 10000) 1000 1 exX (exY 2000) one_ne_zero ex_curved (by norm_num)
    (fun k hk => ?_) 0 ?_
  · have : k = 0 := by omega
    subst this
    exact ⟨inRange_zero (by norm_num) (by norm_num) _ _ _, ex_not_stops (by norm_num)⟩
  · simp only [predictor, ex_intercept, ex_coef (show (1 : ℝ) ≤ 2000 by norm_num)]
    norm_num [exX, Fin.sum_univ_one]

/-- **C141 (large counts)**: standardized features (columns that sum to zero) and counts whose mean exceeds the range by
    more than one; if the first feature is not left out by the penalty, every fit with two iterations or more is NaN in
    its intercept and, of the first feature, its coefficient.  (The first iteration sets the intercept to the mean of the
    counts less one, where its logarithm is wanted.) -/
theorem C141_large_counts [NeZero n] (pen : Pen) (hfi : pen.fi = true) (lo hi tol : ℝ) (hlo : lo ≤ 0) (hhi : 0 ≤ hi)
    (htol : 0 < tol) (maxIter : Nat) (X : Fin n → Fin (p + 1) → ℝ) (y : Fin n → ℝ) (hc : Curved pen X)
    (ht : 0 ≤ pen.l1 * pen.alpha) (hX : ∀ j, ∑ i, X i j = 0) (hy : hi + 1 < (∑ i, y i) / n)
    (hf : tol * ((∑ i, X i 0 ^ 2) / n + pen.alpha * (1 - pen.l1)) ≤
      |(∑ i, X i 0 * (y i - (∑ i, y i) / n)) / n| - pen.l1 * pen.alpha) :
    ∃ c, cdF lo hi pen tol (maxIter + 2) X y = .ok (c, .nan, false) ∧ c 0 = .nan := by
  have hd : 0 < (∑ i, X i 0 ^ 2) / n + pen.alpha * (1 - pen.l1) := by
    have := curved_pos hc (w := fun _ => 1) (fun _ => one_pos) 0
    simpa [denUpdate] using this
  have habs : tol ≤ |(iter pen X y 1).1 0| := by
    have hpos := mul_pos htol hd
    rw [iter_one_zero hfi, abs_div, abs_soft ht (by linarith), abs_of_pos hd, le_div_iff₀ hd]
    exact hf
  have hne : (iter pen X y 1).1 0 ≠ 0 := by
    intro h0
    rw [h0, abs_zero] at habs
    linarith
  have hns : ¬ Stops tol (iter pen X y) 0 := by
    intro h
    have := h 0
    simp only [iter, zero_sub, abs_neg] at this
    exact absurd this (not_lt.2 habs)
  obtain ⟨i, hi0⟩ := exists_row X hX (iter pen X y 1).1
  obtain ⟨c, v, h1, h2, h3⟩ := C141_overflow pen hfi lo hi tol (maxIter + 2) 1 X y (Nat.succ_ne_zero p) hc (by omega)
    (fun k hk => by
      have : k = 0 := by omega
      subst this
      exact ⟨inRange_zero hlo hhi _ _ _, hns⟩) i (by
      rw [predictor, iter_one_intercept hfi]
      linarith)
  rw [h3 ⟨0, hne⟩] at h1
  exact ⟨c, h1, h2 0 hne⟩

example : ∃ c, cdF (-745) 709 exPen (1 / 10000) (998 + 2) exX (exY 2000) = .ok (c, .nan, false) ∧ c 0 = .nan := by
  refine C141_large_counts exPen rfl (-745) 709 (1 / 10000) (by norm_num) (by norm_num) (by norm_num) 998 exX (exY 2000)
    ex_curved (by norm_num [exPen]) (fun j => ?_) ?_ ?_
  · simp [Fin.sum_univ_two, exX]
  · norm_num [Fin.sum_univ_two, exY]
  · norm_num [Fin.sum_univ_two, exX, exY, exPen, abs_of_pos]

/-! ### Constant features -/

/-- **C141 (constant feature)**: without ridge penalty a feature that is zero everywhere (a constant one, once
    standardized) gets the coefficient NaN in every fit, with or without intercept; from two iterations on every other
    coefficient is zero or NaN too, and the intercept is NaN. -/
theorem C141_constant_feature [NeZero n] (pen : Pen) (lo hi tol : ℝ) (hlo : lo ≤ 0) (hhi : 0 ≤ hi)
    (hr : pen.alpha * (1 - pen.l1) = 0) (ht : 0 ≤ pen.l1 * pen.alpha)
    (X : Fin n → Fin p → ℝ) (y : Fin n → ℝ) (q : Fin p) (hq : ∀ i, X i q = 0) (maxIter : Nat) :
    ∃ c b, cdF lo hi pen tol (maxIter + 1) X y = .ok (c, b, false) ∧ c q = .nan ∧
      (0 < maxIter → (∀ j, c j = .fin 0 ∨ c j = .nan) ∧ (pen.fi = true → b = .nan)) :=
  cdF_zero_column hlo hhi tol hr ht X y hq maxIter

example : ∃ c b, cdF (-745) 709 exPen (1 / 10000) (999 + 1) (fun i (j : Fin 2) => if j = 0 then exX i 0 else 0) (exY 2) =
      .ok (c, b, false) ∧ c 1 = .nan ∧
    (0 < 999 → (∀ j, c j = .fin 0 ∨ c j = .nan) ∧ (exPen.fi = true → b = .nan)) :=
  C141_constant_feature exPen (-745) 709 (1 / 10000) (by norm_num) (by norm_num) (by norm_num [exPen])
    (by norm_num [exPen]) _ (exY 2) 1 (fun i => by simp) 999

/-- **C141 (negation)**: of two samples, one standardized feature, counts 2000 and 0, penalty 0.1 and the limits of
    `double`, no fit of two iterations or more is finite; nor, with counts 2 and 0 and a second feature that is zero
    everywhere, any fit. -/
theorem C141_negation :
    (∀ maxIter, ¬ FiniteFit (cdF (-745) 709 exPen (1 / 10000) (maxIter + 2) exX (exY 2000))) ∧
    ∀ maxIter, ¬ FiniteFit (cdF (-745) 709 exPen (1 / 10000) (maxIter + 1)
      (fun i (j : Fin 2) => if j = 0 then exX i 0 else 0) (exY 2)) := by
  constructor
  · rintro maxIter ⟨c, b, v, h, hb, _⟩
    obtain ⟨c', h1, _⟩ := C141_large_counts exPen rfl (-745) 709 (1 / 10000) (by norm_num) (by norm_num) (by norm_num)
      maxIter exX (exY 2000) ex_curved (by norm_num [exPen]) (fun j => by simp [Fin.sum_univ_two, exX])
      (by norm_num [Fin.sum_univ_two, exY]) (by norm_num [Fin.sum_univ_two, exX, exY, exPen, abs_of_pos])
    rw [h1] at h
    have := Except.ok.inj h
    simp only [Prod.mk.injEq] at this
    rw [← this.2.1] at hb
    exact hb
  · rintro maxIter ⟨c, b, v, h, _, hc⟩
    obtain ⟨c', b', h1, h2, _⟩ := C141_constant_feature exPen (-745) 709 (1 / 10000) (by norm_num) (by norm_num)
      (by norm_num [exPen]) (by norm_num [exPen]) (fun i (j : Fin 2) => if j = 0 then exX i 0 else 0) (exY 2) 1
      (fun i => by simp) maxIter
    rw [h1] at h
    have := Except.ok.inj h
    simp only [Prod.mk.injEq] at this
    have h3 := hc 1
    rw [← this.1, h2] at h3
    exact h3

end Verif.Props.PoissonFloat
