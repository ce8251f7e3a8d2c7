import Verif.Model.Scaling
import Verif.Spec.Scaling
import Verif.Lemmas.Utils
import Mathlib.Algebra.BigOperators.Field
import Mathlib.Algebra.BigOperators.Fin
/-! Standardization and intercepts. -/
namespace Verif.Scaling
open Verif.Py Verif.Utils
variable {K : Type} [Field K] {n p : Nat}

theorem linPost_pred (fi : Bool) (sX : Scaler K p) (sy : Scaler K 1)
    (hX : ∀ j, sX.scale j ≠ 0) (hy : sy.scale 0 ≠ 0) (hmX : sX.withMean = fi)
    (hmy : sy.withMean = fi) (coef : Fin p → K) (b : K) (hb : fi = false → b = 0)
    (x : Fin p → K) :
    sy.apply (fun _ => linPred (linPost true fi sX sy coef b).1 (linPost true fi sX sy coef b).2 x) 0
      = linPred coef b (sX.apply x) := by
  cases fi with
  | true =>
    simp only [Scaler.apply, hmX, hmy, linPred, linPost, if_true]
    have h1 : (∑ j, coef j * ((x j - sX.mean j) / sX.scale j)) =
        ∑ j, coef j / sX.scale j * x j - ∑ j, sX.mean j * (coef j / sX.scale j) := by
      rw [← Finset.sum_sub_distrib]
      exact Finset.sum_congr rfl fun j _ => by have := hX j; field_simp
    have h2 : (∑ j, coef j / sX.scale j * sy.scale 0 * x j) =
        (∑ j, coef j / sX.scale j * x j) * sy.scale 0 := by
      rw [Finset.sum_mul]; exact Finset.sum_congr rfl fun j _ => by ring
    have h3 : (∑ j, sX.mean j * (coef j / sX.scale j * sy.scale 0)) =
        (∑ j, sX.mean j * (coef j / sX.scale j)) * sy.scale 0 := by
      rw [Finset.sum_mul]; exact Finset.sum_congr rfl fun j _ => by ring
    rw [h1, h2, h3]
    field_simp
    ring
  | false =>
    simp only [Scaler.apply, hmX, hmy, linPred, linPost, if_true, hb rfl, Bool.false_eq_true,
      if_false, add_zero]
    rw [Finset.sum_div]
    exact Finset.sum_congr rfl fun j _ => by have := hX j; field_simp

theorem glmPost_pred (sX : Scaler K p) (hX : ∀ j, sX.scale j ≠ 0) (hm : sX.withMean = true)
    (coef : Fin p → K) (b : K) (x : Fin p → K) :
    linPred (glmPost true true sX coef b).1 (glmPost true true sX coef b).2 x =
      linPred coef b (sX.apply x) + ∑ j, coef j * sX.mean j * (1 + (sX.scale j)⁻¹) := by
  simp only [linPred, glmPost, Scaler.apply, hm, if_true, Bool.and_self]
  have h1 : (∑ j, coef j * ((x j - sX.mean j) / sX.scale j)) =
      ∑ j, coef j / sX.scale j * x j - ∑ j, coef j * sX.mean j * (sX.scale j)⁻¹ := by
    rw [← Finset.sum_sub_distrib]
    exact Finset.sum_congr rfl fun j _ => by have := hX j; field_simp
  have h2 : (∑ j, sX.mean j * sX.scale j * (coef j / sX.scale j)) = ∑ j, coef j * sX.mean j :=
    Finset.sum_congr rfl fun j _ => by have := hX j; field_simp
  have h3 : (∑ j, coef j * sX.mean j * (1 + (sX.scale j)⁻¹)) =
      ∑ j, coef j * sX.mean j + ∑ j, coef j * sX.mean j * (sX.scale j)⁻¹ := by
    rw [← Finset.sum_add_distrib]
    exact Finset.sum_congr rfl fun j _ => by ring
  rw [h1, h2, h3]
  ring

theorem poisPred_post (sX : Scaler K p) (hX : ∀ j, sX.scale j ≠ 0) (hm : sX.withMean = true)
    (coef : Fin p → K) (b : WithBot K) (x : Fin p → K) :
    poisPred (poisPost true true sX coef b).1 (poisPost true true sX coef b).2 x =
      poisPred coef b (sX.apply x) := by
  simp only [poisPred, poisPost, Scaler.apply, hm, if_true]
  have h1 : (∑ j, (x j - sX.mean j) / sX.scale j * coef j) =
      -(∑ j, sX.mean j * coef j / sX.scale j) + ∑ j, x j * (coef j / sX.scale j) := by
    rw [← Finset.sum_neg_distrib, ← Finset.sum_add_distrib]
    exact Finset.sum_congr rfl fun j _ => by have := hX j; field_simp; ring
  rw [h1, add_assoc, ← WithBot.coe_add]

theorem linIntercept_residuals {n : Nat} [NeZero n] (X : Fin n → Fin p → ℝ) (y : Fin n → ℝ)
    (coef : Fin p → ℝ) :
    ∑ i, (y i - linPred coef (linIntercept true X y coef) (X i)) = 0 := by
  have hn : (n : ℝ) ≠ 0 := by exact_mod_cast NeZero.ne n
  simp only [linPred, linIntercept, if_true]
  rw [Finset.sum_sub_distrib, Finset.sum_add_distrib, Finset.sum_const, Finset.card_univ,
    Fintype.card_fin, nsmul_eq_mul, Finset.sum_comm]
  have h : (∑ j, ((∑ i, X i j) / (n : ℝ)) * coef j) = (∑ j, ∑ i, coef j * X i j) / n := by
    rw [Finset.sum_div]
    refine Finset.sum_congr rfl fun j _ => ?_
    rw [← Finset.mul_sum]
    ring
  rw [h]
  field_simp
  ring

theorem poisLik_max {n : Nat} (eta y : Fin n → ℝ) (b0 : ℝ)
    (h : ∑ i, Real.exp (b0 + eta i) = ∑ i, y i) (b : ℝ) : poisLik eta y b ≤ poisLik eta y b0 := by
  unfold poisLik
  have h1 : ∀ i, y i * (b + eta i) - Real.exp (b + eta i) ≤
      y i * (b0 + eta i) - Real.exp (b0 + eta i) + (b - b0) * (y i - Real.exp (b0 + eta i)) := by
    intro i
    have := Real.add_one_le_exp (b - b0)
    have h2 : Real.exp (b + eta i) = Real.exp (b - b0) * Real.exp (b0 + eta i) := by
      rw [← Real.exp_add]; congr 1; ring
    have h3 := Real.exp_pos (b0 + eta i)
    nlinarith
  calc _ ≤ ∑ i, (y i * (b0 + eta i) - Real.exp (b0 + eta i) +
        (b - b0) * (y i - Real.exp (b0 + eta i))) := Finset.sum_le_sum fun i _ => h1 i
    _ = _ := by
      rw [Finset.sum_add_distrib, ← Finset.mul_sum, Finset.sum_sub_distrib (s := Finset.univ) (f := y),
        h]
      ring

theorem mean_pos {n : Nat} (y : Fin n → ℝ) (hy : ∀ i, 0 ≤ y i) (h : ∃ i, y i ≠ 0) : 0 < mean y := by
  obtain ⟨i, hi⟩ := h
  have hn : 0 < n := Nat.lt_of_le_of_lt (Nat.zero_le _) i.2
  have : 0 < ∑ i, y i := Finset.sum_pos' (fun i _ => hy i)
    ⟨i, Finset.mem_univ _, lt_of_le_of_ne (hy i) (Ne.symm hi)⟩
  unfold mean
  have : (0 : ℝ) < n := by exact_mod_cast hn
  positivity

theorem standardScaler_scale_ne (wm : Bool) (X : Fin n → Fin p → ℝ) (j : Fin p) :
    (standardScaler wm X).scale j ≠ 0 := by
  simp only [standardScaler]
  split <;> simp_all

theorem standardScaler_scale_pos (wm : Bool) (X : Fin n → Fin p → ℝ) (j : Fin p) :
    0 < (standardScaler wm X).scale j := by
  simp only [standardScaler]
  split
  · exact one_pos
  · rename_i h; exact lt_of_le_of_ne (Real.sqrt_nonneg _) (Ne.symm h)

theorem mean_affine {n : Nat} [NeZero n] (v : Fin n → ℝ) (a c : ℝ) :
    (mean fun i => a * v i + c) = a * mean v + c := by
  have hn : (n : ℝ) ≠ 0 := by exact_mod_cast NeZero.ne n
  simp only [mean]
  rw [Finset.sum_add_distrib, ← Finset.mul_sum, Finset.sum_const, Finset.card_univ,
    Fintype.card_fin, nsmul_eq_mul]
  field_simp

theorem mean_mul_left (v : Fin n → ℝ) (a : ℝ) : (mean fun i => a * v i) = a * mean v := by
  simp only [mean]; rw [← Finset.mul_sum]; ring

/-- The deviation before the zero guard. -/
noncomputable def dev (v : Fin n → ℝ) : ℝ := Real.sqrt (mean fun i => (v i - mean v) ^ 2)

theorem dev_affine {n : Nat} [NeZero n] (v : Fin n → ℝ) (a c : ℝ) (ha : 0 < a) :
    dev (fun i => a * v i + c) = a * dev v := by
  unfold dev
  rw [mean_affine]
  have : ∀ i, (a * v i + c - (a * mean v + c)) ^ 2 = a ^ 2 * (v i - mean v) ^ 2 := by
    intro i; ring
  rw [funext this, mean_mul_left, Real.sqrt_mul (sq_nonneg a), Real.sqrt_sq ha.le]

theorem dev_eq_zero {n : Nat} [NeZero n] (v : Fin n → ℝ) : dev v = 0 ↔ ∀ i, v i = mean v := by
  have hn : (0 : ℝ) < n := by exact_mod_cast Nat.pos_of_ne_zero (NeZero.ne n)
  have h0 : 0 ≤ ∑ i, (v i - mean v) ^ 2 := Finset.sum_nonneg fun _ _ => sq_nonneg _
  unfold dev
  rw [Real.sqrt_eq_zero (by unfold mean; exact div_nonneg h0 hn.le)]
  constructor
  · intro h i
    have h1 : ∑ i, (v i - mean v) ^ 2 = 0 := by
      rw [mean] at h
      rcases div_eq_zero_iff.1 h with h | h
      · exact h
      · exact absurd h hn.ne'
    have := (Finset.sum_eq_zero_iff_of_nonneg (fun _ _ => sq_nonneg _)).1 h1 i (Finset.mem_univ _)
    have := pow_eq_zero_iff (two_ne_zero) |>.1 this
    linarith
  · intro h
    have : (fun i => (v i - mean v) ^ 2) = fun _ => 0 := by
      funext i; rw [← h i]; ring
    rw [this]; simp [mean]

theorem scale_eq (wm : Bool) (X : Fin n → Fin p → ℝ) (j : Fin p) :
    (standardScaler wm X).scale j =
      if dev (fun i => X i j) = 0 then 1 else dev (fun i => X i j) := rfl

/-- A column standardizes to the same values whatever its units. -/
theorem standardize_units {n : Nat} [NeZero n] (X : Fin n → Fin p → ℝ) (a c : Fin p → ℝ)
    (ha : ∀ j, 0 < a j) (i : Fin n) :
    (standardScaler true fun i j => a j * X i j + c j).apply (fun j => a j * X i j + c j) =
      (standardScaler true X).apply (X i) := by
  funext j
  simp only [Scaler.apply, scale_eq, dev_affine (fun i => X i j) (a j) (c j) (ha j)]
  simp only [standardScaler, if_true, mean_affine, mul_eq_zero, (ha j).ne', false_or]
  by_cases h : dev (fun i => X i j) = 0
  · have := (dev_eq_zero _).1 h i
    simp only [h, if_true, div_one]
    rw [← this]; ring
  · simp only [h, if_false]
    have := (ha j).ne'
    field_simp
    ring

theorem standardize_units_row {n : Nat} [NeZero n] (X : Fin n → Fin p → ℝ) (a c : Fin p → ℝ)
    (ha : ∀ j, 0 < a j) (x : Fin p → ℝ) (j : Fin p)
    (h : (∃ i i', X i j ≠ X i' j) ∨ ∀ i, x j = X i j) :
    (standardScaler true fun i j => a j * X i j + c j).apply (fun j => a j * x j + c j) j =
      (standardScaler true X).apply x j := by
  simp only [Scaler.apply, scale_eq, dev_affine (fun i => X i j) (a j) (c j) (ha j)]
  simp only [standardScaler, if_true, mean_affine, mul_eq_zero, (ha j).ne', false_or]
  by_cases h0 : dev (fun i => X i j) = 0
  · have h1 := (dev_eq_zero _).1 h0
    rcases h with ⟨i, i', h⟩ | h
    · exact absurd ((h1 i).trans (h1 i').symm) h
    · simp only [h0, if_true, div_one]
      rw [h 0, ← h1 0]; ring
  · simp only [h0, if_false]
    have := (ha j).ne'
    field_simp
    ring

/-- The coefficients the algorithm returned (on the preprocessed data). -/
noncomputable def innerCoef (algo : (Fin n → Fin p → ℝ) → (Fin n → ℝ) → Fin p → ℝ) (std fi : Bool)
    (X : Fin n → Fin p → ℝ) (y : Fin n → ℝ) : Fin p → ℝ :=
  open Classical in
  if ∀ i i', (linPre std fi X y).2 i = (linPre std fi X y).2 i' then fun _ => 0
  else algo (linPre std fi X y).1 (linPre std fi X y).2

theorem linFit_pred (algo : (Fin n → Fin p → ℝ) → (Fin n → ℝ) → Fin p → ℝ) (fi : Bool)
    (X : Fin n → Fin p → ℝ) (y : Fin n → ℝ) (x : Fin p → ℝ) :
    (standardScaler fi (asColumn y)).apply
      (fun _ => linPred (linFit algo true fi X y).1 (linFit algo true fi X y).2 x) 0 =
    linPred (innerCoef algo true fi X y) (linIntercept fi (linPre true fi X y).1
      (linPre true fi X y).2 (innerCoef algo true fi X y)) ((standardScaler fi X).apply x) := by
  have := linPost_pred fi (standardScaler fi X) (standardScaler fi (asColumn y))
    (standardScaler_scale_ne _ _) (standardScaler_scale_ne _ _ _) rfl rfl
    (innerCoef algo true fi X y) (linIntercept fi (linPre true fi X y).1
      (linPre true fi X y).2 (innerCoef algo true fi X y))
    (by intro h; subst h; simp [linIntercept]) x
  exact this

theorem scaler_apply_inj (s : Scaler ℝ 1) (h : s.scale 0 ≠ 0) {u v : ℝ}
    (e : s.apply (fun _ => u) 0 = s.apply (fun _ => v) 0) : u = v := by
  simp only [Scaler.apply] at e
  cases hs : s.withMean <;> simp only [hs, if_true, Bool.false_eq_true, if_false] at e
  · exact (div_left_inj' h).1 e
  · have := (div_left_inj' h).1 e
    linarith

theorem standardize_response {n : Nat} [NeZero n] (y : Fin n → ℝ) (a c : ℝ) (ha : 0 < a) (i : Fin n) :
    (standardScaler true (asColumn fun i => a * y i + c)).apply
      (asColumn (fun i => a * y i + c) i) 0 =
    (standardScaler true (asColumn y)).apply (asColumn y i) 0 := by
  have := standardize_units (asColumn y) (fun _ => a) (fun _ => c) (fun _ => ha) i
  exact congrFun this 0

end Verif.Scaling
