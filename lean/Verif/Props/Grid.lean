import Verif.Model.Grid
import Verif.Spec.Grid
import Mathlib.Algebra.BigOperators.Field
import Mathlib.Algebra.BigOperators.Fin
import Mathlib.Analysis.Complex.Exponential
import Mathlib.Tactic.LinearCombination
import Verif.Lemmas.Grid
/-!
C22, C44: the regularization grids.
-/
namespace Verif.Grid
open Verif.Py Verif.Utils Verif.Spec.Grid
variable {n p : Nat}

/-- **C22**: on a first fit the grid has one entry per (alpha, position), alpha-major: entry
    `a * n_lambdas + l` pairs the `l`-th lambda of the `a`-th alpha with that alpha, and the lambdas
    of each alpha decrease strictly from `max |Xᵀy| / (n α)` to `eps` times it.  Missing: a single
    lambda (`C22_negation`), and data whose cross products are below the rounding resolution, for
    which scikit-learn returns constant rows. -/
theorem C22_elastic_net_grid_partial (X : Fin n → Fin (p + 1) → ℝ) (y : Fin n → ℝ) (alphas : List ℝ)
    (fi : Bool) (eps : ℝ) (num : Nat) (he : 0 < eps) (he1 : eps < 1) (hnum : 2 ≤ num)
    (halpha : ∀ a ∈ alphas, 0 < a ∧ resolution < maxAbs (crossProd fi X y) / (n * a)) :
    ∃ regs cache, enGrid X y alphas fi eps num none = .ok (regs, cache) ∧
      regs.length = alphas.length * num ∧
      ∀ a alpha, alphas[a]? = some alpha → ∃ row : List ℝ, row.length = num ∧
        DecreasesFrom row (maxAbs (crossProd fi X y) / (n * alpha))
          (eps * (maxAbs (crossProd fi X y) / (n * alpha))) ∧
        ∀ l x, row[l]? = some x → regs[a * num + l]? = some ⟨x, alpha⟩ := by
  have hg : ∀ a ∈ alphas, alphaGrid X y a fi eps num = .ok
      (logspace (log10 (maxAbs (crossProd fi X y) / (n * a) * eps))
        (log10 (maxAbs (crossProd fi X y) / (n * a))) num).reverse := by
    intro a ha
    obtain ⟨h1, h2⟩ := halpha a ha
    simp only [alphaGrid]
    rw [if_neg h1.ne', if_neg (not_le.2 h2)]
  have hall : ∀ as : List ℝ, (∀ a ∈ as, a ∈ alphas) →
      ∃ rows, mapE (fun a => alphaGrid X y a fi eps num) as = .ok rows := by
    intro as
    induction as with
    | nil => intro _; exact ⟨[], rfl⟩
    | cons a as ih =>
      intro h
      obtain ⟨rows, hr⟩ := ih fun x hx => h x (List.mem_cons_of_mem _ hx)
      exact ⟨_ :: rows, by simp only [mapE, hg a (h a (by simp)), hr]; rfl⟩
  obtain ⟨rows, hrows⟩ := hall alphas fun _ h => h
  obtain ⟨hlen, hget⟩ := mapE_getElem? hrows
  have hrl : ∀ r ∈ rows, r.length = num := by
    intro r hr
    obtain ⟨i, hi, rfl⟩ := List.getElem_of_mem hr
    obtain ⟨b, hb, hb'⟩ := hget i (alphas[i]'(hlen ▸ hi)) (List.getElem?_eq_getElem _)
    rw [List.getElem?_eq_getElem hi] at hb
    injection hb with hb
    rw [hb]
    exact alphaGrid_length hb'
  obtain ⟨e1, e2⟩ := expand_getElem? hlen hrl
  refine ⟨expand alphas rows, some rows, by simp only [enGrid, enLambdas, hrows], e1, ?_⟩
  intro a alpha ha
  obtain ⟨row, hrow, hrow'⟩ := hget a alpha ha
  have hmem : alpha ∈ alphas := List.mem_of_getElem? ha
  have hpos : 0 < maxAbs (crossProd fi X y) / (n * alpha) :=
    lt_trans (by unfold resolution; positivity) (halpha alpha hmem).2
  rw [hg alpha hmem] at hrow'
  injection hrow' with hrow'
  subst hrow'
  refine ⟨_, by simp [logspace_length], logspace_rev_decreases hpos he he1 hnum, ?_⟩
  intro l x hx
  have hl : l < num := by
    have := (List.getElem?_eq_some_iff.1 hx).1
    simpa [logspace_length] using this
  rw [e2 a l hl, ha, hrow]
  simp [hx]

/-- **C22** for `UoI_Lasso`: `n_lambdas` penalties, strictly decreasing from `max |Xᵀy| / n` to `eps` times
    it, all with L1 penalty only, computed from the data of the call.  Missing: as above. -/
theorem C22_lasso_partial (X : Fin n → Fin (p + 1) → ℝ) (y : Fin n → ℝ) (fi : Bool) (eps : ℝ) (num : Nat)
    (he : 0 < eps) (he1 : eps < 1) (hnum : 2 ≤ num)
    (hr : resolution < maxAbs (crossProd fi X y) / n) :
    ∃ regs, lassoGrid X y fi eps num = .ok regs ∧ regs.length = num ∧ (∀ r ∈ regs, r.l1 = 1) ∧
      DecreasesFrom (regs.map (·.lamb)) (maxAbs (crossProd fi X y) / n)
        (eps * (maxAbs (crossProd fi X y) / n)) := by
  have hpos : 0 < maxAbs (crossProd fi X y) / n := lt_trans (by unfold resolution; positivity) hr
  have hg : alphaGrid X y 1 fi eps num = .ok
      (logspace (log10 (maxAbs (crossProd fi X y) / n * eps))
        (log10 (maxAbs (crossProd fi X y) / n)) num).reverse := by
    simp only [alphaGrid, mul_one]
    rw [if_neg one_ne_zero, if_neg (not_le.2 hr)]
  refine ⟨_, by rw [lassoGrid, hg], by simp [logspace_length], ?_, ?_⟩
  · intro r h
    simp only [List.mem_map] at h
    obtain ⟨a, -, rfl⟩ := h
    rfl
  · rw [List.map_map]
    have : (RegParam.lamb ∘ fun a => (⟨a, 1⟩ : RegParam)) = id := rfl
    rw [this, List.map_id]
    exact logspace_rev_decreases hpos he he1 hnum

/-! ### The largest value is the critical one -/

/-- **C22**: the largest lambda of an alpha is the smallest penalty at which all-zero coefficients
    (with the best intercept, if one is fitted) minimise the elastic-net objective. -/
theorem C22_largest_lambda_is_critical [NeZero n] (X : Fin n → Fin (p + 1) → ℝ) (y : Fin n → ℝ)
    (fi : Bool) {lam alpha : ℝ} (hl : 0 ≤ lam) (ha : 0 < alpha) (ha1 : alpha ≤ 1) :
    (if fi then ZeroOptimal (enObj X y lam alpha) else ZeroOptimalNoIntercept (enObj X y lam alpha))
      ↔ maxAbs (crossProd fi X y) / (n * alpha) ≤ lam := by
  cases fi with
  | false =>
    simp only [Bool.false_eq_true, if_false]
    rw [en_zero_optimal_core X y hl ha ha1]
    rfl
  | true =>
    simp only [if_true]
    have := en_zero_optimal_core (fun i j => centre true (fun i => X i j) i) (centre true y) hl ha ha1
    unfold crossProd
    rw [← this]
    constructor
    · rintro ⟨b0, h⟩ b
      have h1 := h (mean y - ∑ j, (mean fun i => X i j) * b j) b
      rw [enObj_centre, enObj_centre X y lam alpha _ b] at h1
      have h2 : mean y - (mean y - ∑ j, (mean fun i => X i j) * b j) -
          ∑ j, (mean fun i => X i j) * b j = 0 := by ring
      rw [h2] at h1
      have := sq_nonneg (mean y - b0 - ∑ j : Fin (p + 1), (mean fun i => X i j) * 0)
      linarith
    · intro h
      refine ⟨mean y, fun b0' b => ?_⟩
      rw [enObj_centre, enObj_centre X y lam alpha b0' b]
      have h1 := h b
      have := sq_nonneg (mean y - b0' - ∑ j, (mean fun i => X i j) * b j)
      simp only [sub_self, mul_zero, Finset.sum_const_zero]
      linarith

/-! ### C44 -/

/-- **C44** with an intercept: the largest lambda of the Poisson grid is the smallest penalty at
    which all-zero coefficients with the best intercept minimise the penalised objective. -/
theorem C44_largest_lambda_is_critical [NeZero n] (X : Fin n → Fin (p + 1) → ℝ) (y : Fin n → ℝ)
    (hy : ∀ i, 0 ≤ y i) (hy0 : ∃ i, y i ≠ 0) {lam alpha : ℝ} (hl : 0 ≤ lam) (ha : 0 < alpha)
    (ha1 : alpha ≤ 1) :
    ZeroOptimal (poisObj X y lam alpha) ↔ poisLambdaMax X y alpha ≤ lam := by
  have hn : (0 : ℝ) < n := by exact_mod_cast Nat.pos_of_ne_zero (NeZero.ne n)
  have hm : 0 < mean y := by
    obtain ⟨i, hi⟩ := hy0
    exact div_pos (Finset.sum_pos' (fun i _ => hy i)
      ⟨i, Finset.mem_univ _, lt_of_le_of_ne (hy i) (Ne.symm hi)⟩) hn
  rw [poisLambdaMax, maxAbs_div_le (by positivity)]
  constructor
  · rintro ⟨b0, h⟩
    rw [← pois_intercept_stationary hm h]
    exact (pois_core X y hl ha ha1).1 fun b => h b0 b
  · intro h
    refine ⟨Real.log (mean y), pois_sufficient hl ha1 ?_ ?_⟩
    · rw [Real.exp_log hm, Finset.sum_sub_distrib, Finset.sum_const, Finset.card_univ,
        Fintype.card_fin, nsmul_eq_mul, mean]
      field_simp
      ring
    · rw [Real.exp_log hm]; exact h

/-- **C44** without an intercept, for centred columns (`UoI_Poisson` centres them). -/
theorem C44_largest_lambda_no_intercept [NeZero n] (X : Fin n → Fin (p + 1) → ℝ) (y : Fin n → ℝ)
    (hX : ∀ j, ∑ i, X i j = 0) {lam alpha : ℝ} (hl : 0 ≤ lam) (ha : 0 < alpha)
    (ha1 : alpha ≤ 1) :
    ZeroOptimalNoIntercept (poisObj X y lam alpha) ↔ poisLambdaMax X y alpha ≤ lam := by
  have hn : (0 : ℝ) < n := by exact_mod_cast Nat.pos_of_ne_zero (NeZero.ne n)
  rw [poisLambdaMax, maxAbs_div_le (by positivity), ZeroOptimalNoIntercept, pois_core X y hl ha ha1]
  have : ∀ j c, ∑ i, X i j * (y i - c) = ∑ i, X i j * y i := by
    intro j c
    simp only [mul_sub, Finset.sum_sub_distrib, ← Finset.sum_mul, hX j, zero_mul, sub_zero]
  simp only [this]

/-- **C44**: the Poisson grid of a first fit has the layout of the elastic-net grid; the lambdas of
    each alpha decrease from the critical value to `eps` times it. -/
theorem C44_grid (X : Fin n → Fin (p + 1) → ℝ) (y : Fin n → ℝ) (alphas : List ℝ) (eps : ℝ)
    (num : Nat) (he : 0 < eps) (he1 : eps < 1) (hnum : 2 ≤ num)
    (halpha : ∀ a ∈ alphas, 0 < poisLambdaMax X y a) :
    (poisGrid X y alphas eps num none).1.length = alphas.length * num ∧
      ∀ a alpha, alphas[a]? = some alpha → ∃ row : List ℝ, row.length = num ∧
        DecreasesFrom row (poisLambdaMax X y alpha) (eps * poisLambdaMax X y alpha) ∧
        ∀ l x, row[l]? = some x →
          (poisGrid X y alphas eps num none).1[a * num + l]? = some ⟨x, alpha⟩ := by
  simp only [poisGrid, Option.getD_none]
  obtain ⟨e1, e2⟩ := expand_getElem? (as := alphas) (num := num)
    (rows := alphas.map fun a => logspace (log10 (poisLambdaMax X y a))
      (log10 (eps * poisLambdaMax X y a)) num) (by simp)
    (by intro r hr; simp only [List.mem_map] at hr; obtain ⟨a, _, rfl⟩ := hr; exact logspace_length _ _ _)
  refine ⟨e1, ?_⟩
  intro a alpha ha
  have hmem : alpha ∈ alphas := List.mem_of_getElem? ha
  refine ⟨_, logspace_length _ _ _, logspace_decreases (halpha alpha hmem) he he1 hnum, ?_⟩
  intro l x hx
  have hl : l < num := by
    have := (List.getElem?_eq_some_iff.1 hx).1
    simpa [logspace_length] using this
  rw [e2 a l hl, ha]
  simp [ha, hx]

/-- **C22** fails for `n_lambdas = 1`: the only lambda is `eps` times the largest useful value, not
    the largest useful value. -/
theorem C22_negation (X : Fin n → Fin (p + 1) → ℝ) (y : Fin n → ℝ) (fi : Bool) (eps alpha : ℝ)
    (he : 0 < eps) (ha : 0 < alpha)
    (hr : resolution < maxAbs (crossProd fi X y) / (n * alpha)) :
    ∃ cache, enGrid X y [alpha] fi eps 1 none =
      .ok ([⟨eps * (maxAbs (crossProd fi X y) / (n * alpha)), alpha⟩], cache) := by
  have hpos : 0 < maxAbs (crossProd fi X y) / (n * alpha) :=
    lt_trans (by unfold resolution; positivity) hr
  have h : alphaGrid X y alpha fi eps 1 = .ok [eps * (maxAbs (crossProd fi X y) / (n * alpha))] := by
    simp only [alphaGrid]
    rw [if_neg ha.ne', if_neg (not_le.2 hr)]
    simp only [logspace, linspace, List.range_one, List.map_cons, List.map_nil, Nat.cast_zero,
      zero_mul, add_zero, List.reverse_singleton]
    rw [ten_pow_log10 (by positivity), mul_comm]
  refine ⟨_, by simp only [enGrid, enLambdas, mapE, h]; rfl⟩

/-! ### Examples -/

example : ∃ regs cache, enGrid (fun i : Fin 2 => fun _ : Fin 1 => if i = 0 then (1 : ℝ) else -1)
    ![3, 1] [1/2, 1] true (1/10) 3 none = .ok (regs, cache) ∧ regs.length = 6 := by
  obtain ⟨r, c, h1, h2, _⟩ := C22_elastic_net_grid_partial
    (fun i : Fin 2 => fun _ : Fin 1 => if i = 0 then (1 : ℝ) else -1) ![3, 1] [1/2, 1] true (1/10) 3
    (by norm_num) (by norm_num) (by norm_num) (by
      intro a ha
      rw [demo_cross]
      simp only [List.mem_cons, List.not_mem_nil, or_false] at ha
      rcases ha with rfl | rfl <;> norm_num [resolution])
  exact ⟨r, c, h1, h2⟩

example : ∃ regs, lassoGrid (fun i : Fin 2 => fun _ : Fin 1 => if i = 0 then (1 : ℝ) else -1)
    ![3, 1] true (1/10) 3 = .ok regs ∧ regs.length = 3 := by
  obtain ⟨r, h1, h2, _⟩ := C22_lasso_partial
    (fun i : Fin 2 => fun _ : Fin 1 => if i = 0 then (1 : ℝ) else -1) ![3, 1] true (1/10) 3
    (by norm_num) (by norm_num) (by norm_num) (by rw [demo_cross]; norm_num [resolution])
  exact ⟨r, h1, h2⟩

example : ∃ cache, enGrid (fun i : Fin 2 => fun _ : Fin 1 => if i = 0 then (1 : ℝ) else -1)
    ![3, 1] [1] true (1/10) 1 none = .ok ([⟨1/10 * (2 / ((2 : Nat) * 1)), 1⟩], cache) := by
  have := C22_negation (fun i : Fin 2 => fun _ : Fin 1 => if i = 0 then (1 : ℝ) else -1) ![3, 1]
    true (1/10) 1 (by norm_num) (by norm_num) (by rw [demo_cross]; norm_num [resolution])
  rwa [demo_cross] at this

/-- At `λ = 1` (`α = 1`) the zero vector is optimal, at `λ = 1/2` it is not. -/
example : ZeroOptimal (enObj (fun i : Fin 2 => fun _ : Fin 1 => if i = 0 then (1 : ℝ) else -1)
      ![3, 1] 1 1) ∧
    ¬ ZeroOptimal (enObj (fun i : Fin 2 => fun _ : Fin 1 => if i = 0 then (1 : ℝ) else -1)
      ![3, 1] (1/2) 1) := by
  have h1 := C22_largest_lambda_is_critical
    (fun i : Fin 2 => fun _ : Fin 1 => if i = 0 then (1 : ℝ) else -1) ![3, 1] true
    (lam := 1) (alpha := 1) (by norm_num) (by norm_num) le_rfl
  have h2 := C22_largest_lambda_is_critical
    (fun i : Fin 2 => fun _ : Fin 1 => if i = 0 then (1 : ℝ) else -1) ![3, 1] true
    (lam := 1/2) (alpha := 1) (by norm_num) (by norm_num) le_rfl
  rw [demo_cross] at h1 h2
  simp only [if_true] at h1 h2
  exact ⟨h1.2 (by norm_num), fun h => absurd (h2.1 h) (by norm_num)⟩

example : ZeroOptimal (poisObj (fun i : Fin 2 => fun _ : Fin 1 => if i = 0 then (1 : ℝ) else -1)
      ![3, 1] 1 1) ∧
    ¬ ZeroOptimal (poisObj (fun i : Fin 2 => fun _ : Fin 1 => if i = 0 then (1 : ℝ) else -1)
      ![3, 1] (1/2) 1) := by
  have hy : ∀ i : Fin 2, 0 ≤ ![(3 : ℝ), 1] i := by intro i; fin_cases i <;> norm_num
  have hy0 : ∃ i : Fin 2, ![(3 : ℝ), 1] i ≠ 0 := ⟨0, by norm_num⟩
  rw [C44_largest_lambda_is_critical _ _ hy hy0 (by norm_num) (by norm_num) le_rfl,
    C44_largest_lambda_is_critical _ _ hy hy0 (by norm_num) (by norm_num) le_rfl, demo_pois]
  norm_num

example : ZeroOptimalNoIntercept (poisObj
      (fun i : Fin 2 => fun _ : Fin 1 => if i = 0 then (1 : ℝ) else -1) ![3, 1] 1 1) := by
  rw [C44_largest_lambda_no_intercept _ _ (by intro j; simp [Fin.sum_univ_succ]) (by norm_num)
    (by norm_num) le_rfl, demo_pois]

example : (poisGrid (fun i : Fin 2 => fun _ : Fin 1 => if i = 0 then (1 : ℝ) else -1) ![3, 1] [1]
    (1/10) 5 none).1.length = 5 :=
  (C44_grid _ _ [1] (1/10) 5 (by norm_num) (by norm_num) (by norm_num) (by
    intro a ha
    simp only [List.mem_cons, List.not_mem_nil, or_false] at ha
    rw [ha, demo_pois]; norm_num)).1

end Verif.Grid
