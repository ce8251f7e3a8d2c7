import Verif.Model.Scaling
import Verif.Spec.Scaling
import Verif.Lemmas.Utils
import Mathlib.Algebra.BigOperators.Field
import Mathlib.Algebra.BigOperators.Fin
import Verif.Lemmas.Scaling
/-!
C18, C23-C27: constant responses, standardization and intercepts.
-/
namespace Verif.Scaling
open Verif.Py Verif.Utils
variable {K : Type} [Field K] {n p : Nat}

/-! ### C23 -/

/-- **C23**: standardizing the final prediction for a raw row gives the prediction of the internal
    model on the standardized row, i.e. the final prediction is the internal one in the units of
    `y`.  With an intercept, and also without one (then nothing is centred and the internal
    intercept is zero). -/
theorem C23_linear_predictions (fi : Bool) (sX : Scaler K p) (sy : Scaler K 1)
    (hX : ∀ j, sX.scale j ≠ 0) (hy : sy.scale 0 ≠ 0) (hmX : sX.withMean = fi)
    (hmy : sy.withMean = fi) (coef : Fin p → K) (b : K) (hb : fi = false → b = 0)
    (x : Fin p → K) :
    sy.apply (fun _ => linPred (linPost true fi sX sy coef b).1 (linPost true fi sX sy coef b).2 x) 0
      = linPred coef b (sX.apply x) :=
  linPost_pred fi sX sy hX hy hmX hmy coef b hb x

/-- Scales 2 and 3, means 1 and 5. -/
example (x : Fin 2 → ℚ) :
    (⟨fun _ => 5, fun _ => 3, true⟩ : Scaler ℚ 1).apply (fun _ =>
      linPred (linPost true true ⟨![1, 0], ![2, 1], true⟩ ⟨fun _ => 5, fun _ => 3, true⟩ ![4, 7] 6).1
        (linPost true true ⟨![1, 0], ![2, 1], true⟩ ⟨fun _ => 5, fun _ => 3, true⟩ ![4, 7] 6).2 x) 0 =
    linPred ![4, 7] 6 ((⟨![1, 0], ![2, 1], true⟩ : Scaler ℚ 2).apply x) :=
  C23_linear_predictions true _ _ (by intro j; fin_cases j <;> norm_num) (by norm_num) rfl rfl _ _
    (by simp) x

/-! ### C24 -/

/-- **C24** is false: one feature with mean 1 and scale 1, internal coefficient 1 and intercept 0;
    at the raw row 1 the internal model (on the standardized row) has decision value 0, the final
    coefficients give 2. -/
theorem C24_negation :
    linPred (fun _ : Fin 1 => (1 : ℚ)) 0
        ((⟨fun _ => 1, fun _ => 1, true⟩ : Scaler ℚ 1).apply fun _ => 1) = 0 ∧
    linPred (glmPost true true ⟨fun _ => 1, fun _ => 1, true⟩ (fun _ : Fin 1 => (1 : ℚ)) 0).1
      (glmPost true true ⟨fun _ => 1, fun _ => 1, true⟩ (fun _ : Fin 1 => (1 : ℚ)) 0).2
      (fun _ => 1) = 2 := by
  constructor
  · norm_num [linPred, Scaler.apply]
  · norm_num [linPred, glmPost]

/-- **C24**, exactly when it holds with an intercept: the decision values are preserved on a row (and
    then on all rows) iff `∑ coef_j mean_j (1 + 1/scale_j) = 0`; e.g. for data that are already
    centred. -/
theorem C24_intercept_partial (sX : Scaler K p) (hX : ∀ j, sX.scale j ≠ 0)
    (hm : sX.withMean = true) (coef : Fin p → K) (b : K) (x : Fin p → K) :
    linPred (glmPost true true sX coef b).1 (glmPost true true sX coef b).2 x =
      linPred coef b (sX.apply x) ↔ ∑ j, coef j * sX.mean j * (1 + (sX.scale j)⁻¹) = 0 := by
  rw [glmPost_pred sX hX hm, add_eq_left]

/-- **C24** without intercept holds (the scaler does not centre then). -/
theorem C24_no_intercept_partial (sX : Scaler K p) (hX : ∀ j, sX.scale j ≠ 0)
    (hm : sX.withMean = false) (coef : Fin p → K) (b : K) (x : Fin p → K) :
    linPred (glmPost true false sX coef b).1 (glmPost true false sX coef b).2 x =
      linPred coef b (sX.apply x) := by
  simp only [linPred, glmPost, Scaler.apply, hm, if_true, Bool.false_eq_true, if_false,
    Bool.and_false]
  rw [Finset.sum_congr rfl fun j _ => ?_]
  have := hX j
  field_simp

example (x : Fin 1 → ℚ) :
    linPred (glmPost true true ⟨fun _ => 0, fun _ => 2, true⟩ (fun _ : Fin 1 => (3 : ℚ)) 4).1
      (glmPost true true ⟨fun _ => 0, fun _ => 2, true⟩ (fun _ : Fin 1 => (3 : ℚ)) 4).2 x =
    linPred (fun _ => 3) 4 ((⟨fun _ => 0, fun _ => 2, true⟩ : Scaler ℚ 1).apply x) :=
  (C24_intercept_partial _ (fun _ => by norm_num) rfl _ _ _).2 (by simp)

example (x : Fin 1 → ℚ) :
    linPred (glmPost true false ⟨fun _ => 9, fun _ => 2, false⟩ (fun _ : Fin 1 => (3 : ℚ)) 4).1
      (glmPost true false ⟨fun _ => 9, fun _ => 2, false⟩ (fun _ : Fin 1 => (3 : ℚ)) 4).2 x =
    linPred (fun _ => 3) 4 ((⟨fun _ => 9, fun _ => 2, false⟩ : Scaler ℚ 1).apply x) :=
  C24_no_intercept_partial _ (fun _ => by norm_num) rfl _ _ _

/-! ### C25 -/

/-- **C25** with an intercept (also when it is `-inf`): same predicted mean. -/
theorem C25_intercept_partial (sX : Scaler ℝ p) (hX : ∀ j, sX.scale j ≠ 0)
    (hm : sX.withMean = true) (coef : Fin p → ℝ) (b : WithBot ℝ) (x : Fin p → ℝ) :
    predictMean (poisPost true true sX coef b).1 (poisPost true true sX coef b).2 x =
      predictMean coef b (sX.apply x) := by
  rw [predictMean, predictMean, poisPred_post sX hX hm]

/-- **C25** is false without an intercept: the scaler centres the data, but nothing compensates. One
    feature with mean 1, scale 1, coefficient 1: the internal model predicts 1 at the raw row 1,
    the final coefficients predict `e`. -/
theorem C25_negation :
    predictMean (fun _ : Fin 1 => (1 : ℝ)) ((0 : ℝ) : WithBot ℝ)
        ((⟨fun _ => 1, fun _ => 1, true⟩ : Scaler ℝ 1).apply fun _ => 1) = 1 ∧
    predictMean (poisPost true false ⟨fun _ => 1, fun _ => 1, true⟩ (fun _ : Fin 1 => (1 : ℝ))
        ((0 : ℝ) : WithBot ℝ)).1 (poisPost true false ⟨fun _ => 1, fun _ => 1, true⟩
        (fun _ : Fin 1 => (1 : ℝ)) ((0 : ℝ) : WithBot ℝ)).2 (fun _ => 1) = Real.exp 1 := by
  constructor
  · simp [predictMean, poisPred, Scaler.apply, expB]
  · simp only [predictMean, poisPred, poisPost, if_true, Bool.false_eq_true, if_false]
    rw [← WithBot.coe_add]
    simp [expB]

example (x : Fin 1 → ℝ) :
    predictMean (poisPost true true ⟨fun _ => 5, fun _ => 2, true⟩ (fun _ : Fin 1 => (3 : ℝ))
      ((4 : ℝ) : WithBot ℝ)).1 (poisPost true true ⟨fun _ => 5, fun _ => 2, true⟩
      (fun _ : Fin 1 => (3 : ℝ)) ((4 : ℝ) : WithBot ℝ)).2 x =
    predictMean (fun _ => 3) ((4 : ℝ) : WithBot ℝ)
      ((⟨fun _ => 5, fun _ => 2, true⟩ : Scaler ℝ 1).apply x) :=
  C25_intercept_partial _ (fun _ => by norm_num) rfl _ _ _

/-! ### C27 -/

/-- **C27**, linear: with `fit_intercept` the residuals of the fitted intercept sum to zero and no
    other intercept has a smaller squared error. -/
theorem C27_linear {n : Nat} [NeZero n] (X : Fin n → Fin p → ℝ) (y : Fin n → ℝ)
    (coef : Fin p → ℝ) :
    (∑ i, (y i - linPred coef (linIntercept true X y coef) (X i)) = 0) ∧
      ∀ b, ∑ i, (y i - linPred coef (linIntercept true X y coef) (X i)) ^ 2 ≤
        ∑ i, (y i - linPred coef b (X i)) ^ 2 := by
  refine ⟨linIntercept_residuals X y coef, fun b => ?_⟩
  have h0 := linIntercept_residuals X y coef
  set b0 := linIntercept true X y coef
  have h1 : ∀ i, (y i - linPred coef b (X i)) ^ 2 = (y i - linPred coef b0 (X i)) ^ 2 +
      2 * (b0 - b) * (y i - linPred coef b0 (X i)) + (b0 - b) ^ 2 := by
    intro i; simp only [linPred]; ring
  rw [Finset.sum_congr rfl fun i _ => h1 i, Finset.sum_add_distrib, Finset.sum_add_distrib,
    ← Finset.mul_sum, h0]
  have : 0 ≤ ∑ _i : Fin n, (b0 - b) ^ 2 := Finset.sum_nonneg fun _ _ => sq_nonneg _
  linarith

example (coef : Fin 1 → ℝ) (b : ℝ) :
    ∑ i, (![(1 : ℝ), 4] i - linPred coef (linIntercept true (fun i _ => (i : ℝ)) ![1, 4] coef)
      (fun _ => ((i : Fin 2) : ℝ))) ^ 2 ≤ ∑ i, (![(1 : ℝ), 4] i - linPred coef b
      (fun _ => ((i : Fin 2) : ℝ))) ^ 2 :=
  (C27_linear (fun i : Fin 2 => fun _ => (i : ℝ)) ![(1 : ℝ), 4] coef).2 b

/-- **C27**, Poisson: for a nonnegative response the mean of the predicted means is the mean of the
    response; if the response is not all zero the intercept is finite and maximises the likelihood;
    if it is all zero the intercept is `-inf`, which is the supremum (every finite intercept is
    strictly worse than the limit 0). -/
theorem C27_poisson {n : Nat} [NeZero n] (X : Fin n → Fin p → ℝ) (y : Fin n → ℝ)
    (hy : ∀ i, 0 ≤ y i) (coef : Fin p → ℝ) :
    (mean fun i => predictMean coef (poisIntercept true X y coef) (X i)) = mean y ∧
    ((∃ i, y i ≠ 0) → ∃ b0 : ℝ, poisIntercept true X y coef = (b0 : WithBot ℝ) ∧
      ∀ b, poisLik (fun i => ∑ j, X i j * coef j) y b ≤
        poisLik (fun i => ∑ j, X i j * coef j) y b0) ∧
    ((∀ i, y i = 0) → poisIntercept true X y coef = ⊥ ∧
      ∀ b, poisLik (fun i => ∑ j, X i j * coef j) y b < 0) := by
  have hn : (0 : ℝ) < n := by exact_mod_cast Nat.pos_of_ne_zero (NeZero.ne n)
  set mu := fun i => Real.exp (∑ j, X i j * coef j) with hmu
  have hmu0 : 0 < ∑ i, mu i := Finset.sum_pos (fun _ _ => Real.exp_pos _) Finset.univ_nonempty
  have hmm : 0 < mean mu := div_pos hmu0 hn
  have hkey : (∃ i, y i ≠ 0) →
      ∑ i, Real.exp (Real.log (mean y / mean mu) + ∑ j, X i j * coef j) = ∑ i, y i := by
    intro h
    have hpos : 0 < mean y / mean mu := div_pos (mean_pos y hy h) hmm
    simp only [Real.exp_add, Real.exp_log hpos]
    rw [← Finset.mul_sum]
    change mean y / mean mu * ∑ i, mu i = _
    unfold mean
    field_simp
  refine ⟨?_, fun h => ?_, fun h => ?_⟩
  · by_cases h : ∃ i, y i ≠ 0
    · have hb : poisIntercept true X y coef =
          ((Real.log (mean y / mean mu) : ℝ) : WithBot ℝ) := by simp [poisIntercept, h, hmu]
      have hp : ∀ i, predictMean coef (poisIntercept true X y coef) (X i) =
          Real.exp (Real.log (mean y / mean mu) + ∑ j, X i j * coef j) := by
        intro i
        rw [hb, predictMean, poisPred, ← WithBot.coe_add]; rfl
      rw [funext hp]
      unfold mean at *
      rw [hkey h]
    · have hb : poisIntercept true X y coef = ⊥ := by simp only [poisIntercept, if_true, if_neg h]
      have hy0 : y = fun _ => 0 := by
        funext i; by_contra hi; exact h ⟨i, hi⟩
      rw [hb, hy0]
      simp only [predictMean, poisPred, WithBot.bot_add]
      rfl
  · exact ⟨_, by simp [poisIntercept, h, hmu], fun b => poisLik_max _ y _ (hkey h) b⟩
  · refine ⟨by simp [poisIntercept, h], fun b => ?_⟩
    unfold poisLik
    rw [← neg_pos, ← Finset.sum_neg_distrib]
    refine Finset.sum_pos (fun i _ => ?_) Finset.univ_nonempty
    rw [h i]
    have := Real.exp_pos (b + ∑ j, X i j * coef j)
    linarith

/-- **C27**, intercept-only Poisson candidates: the same, with no features. -/
theorem C27_poisson_no_features {n : Nat} [NeZero n] (y : Fin n → ℝ) (hy : ∀ i, 0 ≤ y i) :
    expB (poisInterceptOnly y) = mean y ∧
      ((∃ i, y i ≠ 0) → ∃ b0 : ℝ, poisInterceptOnly y = (b0 : WithBot ℝ) ∧
        ∀ b, poisLik (fun _ => 0) y b ≤ poisLik (fun _ => 0) y b0) := by
  have hn : (0 : ℝ) < n := by exact_mod_cast Nat.pos_of_ne_zero (NeZero.ne n)
  constructor
  · by_cases h : ∃ i, y i ≠ 0
    · rw [poisInterceptOnly, if_pos h]
      exact Real.exp_log (mean_pos y hy h)
    · rw [poisInterceptOnly, if_neg h]
      have hy0 : y = fun _ => 0 := by
        funext i; by_contra hi; exact h ⟨i, hi⟩
      simp [expB, hy0, mean]
  · intro h
    refine ⟨_, by rw [poisInterceptOnly, if_pos h], fun b => poisLik_max _ y _ ?_ b⟩
    simp only [add_zero, Real.exp_log (mean_pos y hy h), Finset.sum_const, Finset.card_univ,
      Fintype.card_fin, nsmul_eq_mul]
    unfold mean
    field_simp

example : expB (poisInterceptOnly ![(1 : ℝ), 0, 5]) = 2 := by
  rw [(C27_poisson_no_features ![(1 : ℝ), 0, 5] (by intro i; fin_cases i <;> norm_num)).1]
  norm_num [mean, Fin.sum_univ_succ]

example (coef : Fin 1 → ℝ) : (mean fun i => predictMean coef (poisIntercept true
    (fun i : Fin 2 => fun _ => (i : ℝ)) ![(1 : ℝ), 4] coef) (fun _ => ((i : Fin 2) : ℝ))) = 5 / 2 := by
  rw [(C27_poisson (fun i : Fin 2 => fun _ => (i : ℝ)) ![(1 : ℝ), 4]
    (by intro i; fin_cases i <;> norm_num) coef).1]
  norm_num [mean, Fin.sum_univ_succ]

/-! ### C26 -/

/-- **C26**: predictions do not depend on the units of the features.  A feature that is constant in
    the training data has no unit; for it the new point must have that constant as well. -/
theorem C26_units {n : Nat} [NeZero n] (algo : (Fin n → Fin p → ℝ) → (Fin n → ℝ) → Fin p → ℝ)
    (X : Fin n → Fin p → ℝ) (y : Fin n → ℝ) (a c : Fin p → ℝ) (ha : ∀ j, 0 < a j)
    (x : Fin p → ℝ) (hx : ∀ j, (∃ i i', X i j ≠ X i' j) ∨ ∀ i, x j = X i j) :
    UnitFree (linFit algo true true) X y a c x := by
  refine scaler_apply_inj (standardScaler true (asColumn y)) (standardScaler_scale_ne _ _ _) ?_
  rw [linFit_pred, linFit_pred]
  have hpre : linPre true true (fun i j => a j * X i j + c j) y = linPre true true X y := by
    simp only [linPre, if_true]
    congr 1
    funext i
    exact standardize_units X a c ha i
  have hrow : (standardScaler true fun i j => a j * X i j + c j).apply (fun j => a j * x j + c j) =
      (standardScaler true X).apply x := funext fun j => standardize_units_row X a c ha x j (hx j)
  have hin : innerCoef algo true true (fun i j => a j * X i j + c j) y =
      innerCoef algo true true X y := by
    simp only [innerCoef, hpre]
  rw [hrow, hin, hpre]

/-- Metres to centimetres with an offset. -/
example (algo : (Fin 3 → Fin 1 → ℝ) → (Fin 3 → ℝ) → Fin 1 → ℝ) (x : Fin 1 → ℝ) :
    UnitFree (linFit algo true true) (fun i _ => (i : ℝ)) ![2, 7, 1] (fun _ => 100) (fun _ => 3) x :=
  C26_units algo _ _ _ _ (fun _ => by norm_num) x fun _ => .inl ⟨0, 1, by norm_num⟩

/-! ### C74 -/

/-- **C74**: changing the units of the response changes the predictions accordingly. -/
theorem C74_response_units {n : Nat} [NeZero n]
    (algo : (Fin n → Fin p → ℝ) → (Fin n → ℝ) → Fin p → ℝ)
    (X : Fin n → Fin p → ℝ) (y : Fin n → ℝ) (a c : ℝ) (ha : 0 < a) (x : Fin p → ℝ) :
    linPred (linFit algo true true X (fun i => a * y i + c)).1
      (linFit algo true true X (fun i => a * y i + c)).2 x =
    a * linPred (linFit algo true true X y).1 (linFit algo true true X y).2 x + c := by
  have hpre : linPre true true X (fun i => a * y i + c) = linPre true true X y := by
    simp only [linPre, if_true]
    congr 1
    funext i
    exact standardize_response y a c ha i
  have h1 := linFit_pred algo true X (fun i => a * y i + c) x
  have h2 := linFit_pred algo true X y x
  have hin : innerCoef algo true true X (fun i => a * y i + c) = innerCoef algo true true X y := by
    simp only [innerCoef, hpre]
  rw [hin, hpre, ← h2] at h1
  by_cases h0 : dev y = 0
  · -- constant response: both predictions are the constants
    have hy := (dev_eq_zero _).1 h0
    have hc : ∀ i i' : Fin n, (linPre true true X y).2 i = (linPre true true X y).2 i' := by
      intro i i'
      simp only [linPre, if_true, Scaler.apply, asColumn]
      rw [hy i, hy i']
    have hz : (linPre true true X y).2 = fun _ => 0 := by
      funext i
      simp only [linPre, if_true, Scaler.apply, asColumn]
      simp only [standardScaler, if_true]
      have : (mean fun i => asColumn y i 0) = y i := (hy i).symm
      rw [this]; simp
    have hin0 : innerCoef algo true true X y = fun _ => 0 := by
      simp only [innerCoef]; rw [if_pos hc]
    have hb : linPred (innerCoef algo true true X y) (linIntercept true (linPre true true X y).1
        (linPre true true X y).2 (innerCoef algo true true X y))
        ((standardScaler true X).apply x) = 0 := by
      rw [hin0, hz]; simp [linPred, linIntercept]
    rw [hb] at h2
    rw [h2] at h1
    have e1 := scaler_apply_inj (standardScaler true (asColumn fun i => a * y i + c))
      (standardScaler_scale_ne _ _ _) (v := a * mean y + c) (h1.trans (by
        simp only [Scaler.apply]; simp [standardScaler, asColumn, mean_affine]))
    have e2 := scaler_apply_inj (standardScaler true (asColumn y))
      (standardScaler_scale_ne _ _ _) (v := mean y) (h2.trans (by
        simp only [Scaler.apply]; simp [standardScaler, asColumn]))
    rw [e1, e2]
  · simp only [Scaler.apply, scale_eq] at h1
    simp only [asColumn, dev_affine y a c ha, mul_eq_zero, ha.ne', h0, false_or, if_false] at h1
    simp only [standardScaler, if_true, asColumn, mean_affine] at h1
    have := ha.ne'
    field_simp at h1
    linarith

example (algo : (Fin 3 → Fin 1 → ℝ) → (Fin 3 → ℝ) → Fin 1 → ℝ) (x : Fin 1 → ℝ) :
    linPred (linFit algo true true (fun i _ => (i : ℝ)) (fun i => 2 * ![2, 7, 1] i + 5)).1
      (linFit algo true true (fun i _ => (i : ℝ)) (fun i => 2 * ![2, 7, 1] i + 5)).2 x =
    2 * linPred (linFit algo true true (fun i _ => (i : ℝ)) ![2, 7, 1]).1
      (linFit algo true true (fun i _ => (i : ℝ)) ![2, 7, 1]).2 x + 5 :=
  C74_response_units algo _ _ _ _ (by norm_num) x

/-! ### C18 -/

/-- **C18**, linear estimators: on a constant response all coefficients are zero, and with
    `fit_intercept` every input is predicted as that constant, whatever `standardize` is.  The full
    statement also covers the classifier, for which it fails (`C18_negation`). -/
theorem C18_linear_partial {n : Nat} [NeZero n]
    (algo : (Fin n → Fin p → ℝ) → (Fin n → ℝ) → Fin p → ℝ) (std fi : Bool)
    (X : Fin n → Fin p → ℝ) (c : ℝ) :
    (∀ j, (linFit algo std fi X fun _ => c).1 j = 0) ∧
    (fi = true → ∀ x, linPred (linFit algo std fi X fun _ => c).1
      (linFit algo std fi X fun _ => c).2 x = c) := by
  have hn : (n : ℝ) ≠ 0 := by exact_mod_cast NeZero.ne n
  have hmean : (mean fun _ : Fin n => c) = c := by
    simp [mean]; field_simp
  have hc : ∀ i i' : Fin n, (linPre std fi X fun _ => c).2 i = (linPre std fi X fun _ => c).2 i' := by
    intro i i'; cases std <;> simp [linPre, Scaler.apply, asColumn]
  constructor
  · intro j
    simp only [linFit, if_pos hc]
    cases std <;> simp [linPost]
  · intro hfi x
    subst hfi
    simp only [linFit, if_pos hc]
    cases std
    · simp [linPost, linPre, linIntercept, linPred]; field_simp
    · simp [linPost, linPre, linIntercept, linPred, Scaler.apply, asColumn]
      have : (mean fun i : Fin n => asColumn (fun _ => c) i 0) = c := hmean
      simp [standardScaler, this]

/-- **C18**, Poisson: on a constant nonnegative response all coefficients are zero and the predicted
    mean is that constant everywhere. -/
theorem C18_poisson_partial {n : Nat} [NeZero n]
    (algo : (Fin n → Fin p → ℝ) → (Fin n → ℝ) → Fin p → ℝ) (X : Fin n → Fin p → ℝ) (c : ℝ)
    (hc : 0 ≤ c) (x : Fin p → ℝ) :
    (∀ j, (poisFit algo true X fun _ => c).1 j = 0) ∧
    predictMean (poisFit algo true X fun _ => c).1 (poisFit algo true X fun _ => c).2 x = c := by
  have hn : (n : ℝ) ≠ 0 := by exact_mod_cast NeZero.ne n
  have hmean : ∀ c : ℝ, (mean fun _ : Fin n => c) = c := by
    intro c; simp [mean]; field_simp
  have hcc : (∀ i i' : Fin n, (fun _ : Fin n => c) i = (fun _ => c) i') := fun _ _ => rfl
  refine ⟨fun j => ?_, ?_⟩
  · simp [poisFit, poisPost]
  · simp only [poisFit, forall_const, if_true, poisPost, poisIntercept, predictMean, poisPred]
    rcases hc.eq_or_lt with h | h
    · subst h; simp [expB]
    · have : ∃ _i : Fin n, c ≠ 0 := ⟨0, h.ne'⟩
      rw [if_pos this]
      simp only [mul_zero, Finset.sum_const_zero, Real.exp_zero, hmean, div_one, zero_div, neg_zero,
        WithBot.coe_zero, add_zero]
      exact Real.exp_log h

/-- **C18** is false for the classifier with an intercept: fitting a constant response raises
    `ValueError`, whatever the data. -/
theorem C18_negation {n : Nat} (y : Fin n → Nat) (hy : ∀ i i', y i = y i') (loss opt : ℝ) :
    logisticConstFit true y loss opt = .error .valueError := by
  simp [logisticConstFit, interceptFixedCoefBinary, logLossCheck, if_pos hy]

example (algo : (Fin 3 → Fin 1 → ℝ) → (Fin 3 → ℝ) → Fin 1 → ℝ) (x : Fin 1 → ℝ) :
    predictMean (poisFit algo true (fun i _ => (i : ℝ)) fun _ => 7).1
      (poisFit algo true (fun i _ => (i : ℝ)) fun _ => 7).2 x = 7 :=
  (C18_poisson_partial algo _ 7 (by norm_num) x).2

example (algo : (Fin 3 → Fin 1 → ℝ) → (Fin 3 → ℝ) → Fin 1 → ℝ) (x : Fin 1 → ℝ) :
    linPred (linFit algo true true (fun i _ => (i : ℝ)) fun _ => -7).1
      (linFit algo true true (fun i _ => (i : ℝ)) fun _ => -7).2 x = -7 :=
  (C18_linear_partial algo true true _ (-7)).2 rfl x

example (loss opt : ℝ) : logisticConstFit true (fun _ : Fin 3 => 1) loss opt = .error .valueError :=
  C18_negation _ (fun _ _ => rfl) _ _

end Verif.Scaling
