import Mathlib.Tactic.FinCases
import Verif.Lemmas.LogisticMin
/-!
When the fits of the classifiers have a solution.
-/
namespace Verif.Props
open Verif.Logistic Verif.Spec.LogisticMin Filter Topology

variable {n p k : Nat}

/-- **C130**, two classes: the objective of the estimation model of `UoI_L1Logistic` (`C=np.inf`) has a
    minimiser exactly if the training samples are not separable on the support, even weakly.  Missing:
    separable samples, for which there is none. -/
theorem C130_binary_partial (fi : Bool) (S : Fin p → Bool) (X : Fin n → Fin p → ℝ) (y : Fin n → ℝ) :
    Attained (binTarget none fi S X y) ↔ ¬ Separable fi S X y := by
  have e : binTarget none fi S X y = fun v => lossB (binMargin fi S X y v) := by
    funext v
    rw [binTarget_eq]
    simp [invC]
  rw [e]
  constructor
  · rintro ⟨v, hv⟩ ⟨d, e, hw, hall, i, hi⟩
    have h1 := hv (v + (d, e))
    simp only [map_add] at h1
    refine absurd h1 (not_le.mpr (lossB_lt (i := i) (fun i => ?_) ?_)) <;>
      rw [Pi.add_apply, binMargin_score X y hw]
    · have := hall i
      linarith
    · linarith
  · intro hsep
    have := attained_add (binMargin fi S X y) (0 : (Fin p → ℝ) × ℝ →ₗ[ℝ] (Fin 0 → ℝ)) lossB (fun _ => 0)
      lossB_continuous continuous_const (K := 0) (pos_inv n) one_pos (fun v => lossB_low' _)
      (fun v => lossB_nonneg _) (fun _ j => j.elim0) (fun _ => le_refl 0) (le_refl 0) (by
        intro v _ hall i
        by_contra hne
        refine hsep ⟨_, _, within_masked fi S v, fun i => ?_, i, ?_⟩
        · rw [← binMargin_masked]
          exact hall i
        · rw [← binMargin_masked]
          exact lt_of_le_of_ne (hall i) (Ne.symm hne))
    simpa using this

/-- Three samples of one feature, the middle one of the other class: not separable, there is a solution. -/
example : Attained (binTarget none true (fun _ : Fin 1 => true) (![fun _ => -1, fun _ => 0, fun _ => 1])
    ![1, -1, 1]) := by
  rw [C130_binary_partial]
  rintro ⟨d, e, -, hall, i, hi⟩
  have h0 := hall 0
  have h1 := hall 1
  have h2 := hall 2
  simp [score] at h0 h1 h2
  fin_cases i <;> simp [score] at hi <;> linarith

/-- **C130** is false: two samples of one feature, one of each class.  For all coefficients and intercepts
    there are better ones, so whatever the optimiser returns is not a solution. -/
theorem C130_negation : ¬ Attained (binTarget none true (fun _ : Fin 1 => true)
    (![fun _ => -1, fun _ => 1] : Fin 2 → Fin 1 → ℝ) ![-1, 1]) := by
  rw [C130_binary_partial, not_not]
  refine ⟨fun _ => 1, 0, ⟨fun j hj => (by cases hj), fun h => (by cases h)⟩, fun i => ?_, 0, ?_⟩
  · fin_cases i <;> simp [score]
  · simp [score]

/-- With at least as many free features as samples, in general position, there is never a solution: if the
    scores can take all values on the samples, every labelling is separable. -/
theorem C130_interpolating (hn : n ≠ 0) (fi : Bool) (S : Fin p → Bool) (X : Fin n → Fin p → ℝ)
    (h : ∀ t : Fin n → ℝ, ∃ d e, Within fi S d e ∧ ∀ i, score d e (X i) = t i)
    (y : Fin n → ℝ) (hy : ∀ i, y i = 1 ∨ y i = -1) : ¬ Attained (binTarget none fi S X y) := by
  rw [C130_binary_partial, not_not]
  obtain ⟨d, e, hw, hd⟩ := h y
  have h1 : ∀ i, y i * score d e (X i) = 1 := fun i => by
    rw [hd i]
    rcases hy i with h | h <;> rw [h] <;> norm_num
  exact ⟨d, e, hw, fun i => by rw [h1 i]; exact zero_le_one, ⟨0, Nat.pos_of_ne_zero hn⟩,
    by rw [h1]; exact one_pos⟩

/-- Two samples, two features. -/
example : ¬ Attained (binTarget none false (fun _ => true) (![![1, 0], ![1, 1]] : Fin 2 → Fin 2 → ℝ)
    ![1, -1]) :=
  C130_interpolating (by decide) _ _ _ (fun t => ⟨![t 0, t 1 - t 0], 0, ⟨fun j hj => (by cases hj),
    fun _ => rfl⟩, fun i => by fin_cases i <;> simp [score, Fin.sum_univ_two]⟩) _
    (fun i => by fin_cases i <;> simp)

/-- On strictly separated samples the stopping test of the optimiser (no entry of the gradient above
    `pgtol`) is met by parameters as large as one likes: it does not determine the coefficients. -/
theorem C130_pgtol {fi : Bool} {S : Fin p → Bool} {X : Fin n → Fin p → ℝ} {y : Fin n → ℝ}
    {d : Fin p → ℝ} {e : ℝ} (hw : Within fi S d e) (h : ∀ i, 0 < y i * score d e (X i))
    {tol : ℝ} (ht : 0 < tol) (r : ℝ) :
    ∃ t ≥ r, (∀ j, |(binTargetGrad none fi S X y (t • d, t * e)).1 j| ≤ tol) ∧
      ∀ g, (binTargetGrad none fi S X y (t • d, t * e)).2 = some g → |g| ≤ tol := by
  have hm : ∀ t i, y i * (∑ j, X i j * maskedW S (t • d) j + (interceptArg fi (t * e)).getD 0) =
      t * (y i * score d e (X i)) := by
    intro t i
    have h1 := binMargin_score X y hw i
    have h2 := congrFun ((binMargin fi S X y).map_smul t (d, e)) i
    rw [Pi.smul_apply, h1, smul_eq_mul] at h2
    rw [← h2]
    simp only [binMargin, LinearMap.coe_mk, AddHom.coe_mk, interceptArg, Prod.smul_mk, smul_eq_mul]
    cases fi <;> rfl
  have hz : ∀ i, Tendsto (fun t : ℝ => 1 * (expit (t * (y i * score d e (X i))) - 1) * y i) atTop
      (𝓝 0) := by
    intro i
    have := (expit_tendsto (h i)).mul_const (y i)
    simpa using this
  have hsmall : ∀ u : Fin n → ℝ, Tendsto (fun t : ℝ =>
      (∑ i, u i * (1 * (expit (t * (y i * score d e (X i))) - 1) * y i)) / n) atTop (𝓝 0) := by
    intro u
    have := (tendsto_finsetSum Finset.univ fun i _ => (hz i).const_mul (u i)).div_const (n : ℝ)
    simpa using this
  have hev : ∀ u : Fin n → ℝ, ∀ᶠ t : ℝ in atTop,
      |(∑ i, u i * (1 * (expit (t * (y i * score d e (X i))) - 1) * y i)) / n| ≤ tol := by
    intro u
    have := (hsmall u).abs
    rw [abs_zero] at this
    exact (this.eventually (gt_mem_nhds ht)).mono fun t h => le_of_lt h
  have hall := (eventually_all.mpr fun j => hev fun i => X i j).and ((hev fun _ => 1).and
    (eventually_ge_atTop r))
  obtain ⟨t, h1, h2, h3⟩ := hall.exists
  refine ⟨t, h3, fun j => ?_, fun g hg => ?_⟩
  · simp only [binTargetGrad, binLossGrad, applyMask, hm, invC, zero_mul, add_zero]
    split_ifs
    · exact h1 j
    · rw [abs_zero]
      exact ht.le
  · simp only [binTargetGrad, binLossGrad, applyMask, hm] at hg
    cases fi with
    | false => cases hg
    | true =>
      simp only [interceptArg, if_true, Option.map_some, Option.some.injEq] at hg
      rw [← hg]
      simpa using h2

/-- Two samples. -/
example (r : ℝ) : ∃ t ≥ r, (∀ j, |(binTargetGrad none true (fun _ : Fin 1 => true)
    (![fun _ => -1, fun _ => 1] : Fin 2 → Fin 1 → ℝ) ![-1, 1] (t • fun _ => 1, t * 0)).1 j| ≤ 1 / 1000) ∧
    ∀ g, (binTargetGrad none true (fun _ : Fin 1 => true) (![fun _ => -1, fun _ => 1] : Fin 2 → Fin 1 → ℝ)
      ![-1, 1] (t • fun _ => 1, t * 0)).2 = some g → |g| ≤ 1 / 1000 :=
  C130_pgtol ⟨fun j hj => (by cases hj), fun h => (by cases h)⟩
    (fun i => by fin_cases i <;> simp [score]) (by norm_num) r

/-- A finite `C`: there is a solution if no intercept is fitted, or both classes are present. -/
theorem C130_penalised {C : ℝ} (hC : 0 < C) (fi : Bool) (S : Fin p → Bool) (X : Fin n → Fin p → ℝ)
    (y : Fin n → ℝ) (h : fi = true → (∃ i, 0 < y i) ∧ ∃ i, y i < 0) :
    Attained (binTarget (some C) fi S X y) := by
  have e : binTarget (some C) fi S X y = fun v => lossB (binMargin fi S X y v) +
      1 / 2 * (1 / C) * ∑ j, maskedL S v j * maskedL S v j := funext fun v => binTarget_eq _ _ _ _ _ v
  rw [e]
  have ha : 0 < 1 / C := by positivity
  refine attained_add (binMargin fi S X y) (maskedL S) lossB
    (fun w => 1 / 2 * (1 / C) * ∑ j, w j * w j) lossB_continuous (by fun_prop) (pos_inv n) ha
    (fun v => lossB_low' _) (fun v => lossB_nonneg _) (quad_low ha) (fun w => ?_) (half_pos ha).le ?_
  · exact mul_nonneg (by positivity) (Finset.sum_nonneg fun j _ => mul_self_nonneg _)
  · intro v hw hall i
    have hw' : ∀ j, maskedW S v.1 j = 0 := hw
    have hm : ∀ i, binMargin fi S X y v i = y i * if fi then v.2 else 0 := fun i => by
      simp [binMargin, hw']
    rw [hm]
    cases fi with
    | false => simp
    | true =>
      obtain ⟨⟨i1, h1⟩, i2, h2⟩ := h rfl
      have a1 := hall i1
      have a2 := hall i2
      rw [hm] at a1 a2
      simp only [if_true] at a1 a2 ⊢
      have b1 : 0 ≤ v.2 := by
        by_contra hc
        push Not at hc
        nlinarith
      have b2 : v.2 ≤ 0 := by
        by_contra hc
        push Not at hc
        nlinarith
      rw [le_antisymm b2 b1, mul_zero]

/-- The two separable samples of `C130_negation`. -/
example : Attained (binTarget (some 10) true (fun _ : Fin 1 => true)
    (![fun _ => -1, fun _ => 1] : Fin 2 → Fin 1 → ℝ) ![-1, 1]) :=
  C130_penalised (by norm_num) _ _ _ _ fun _ => ⟨⟨1, by simp⟩, 0, by simp⟩

/-- The same for the L1 penalty of the selection model. -/
theorem C130_l1 {C : ℝ} (hC : 0 < C) (fi : Bool) (S : Fin p → Bool) (X : Fin n → Fin p → ℝ)
    (y : Fin n → ℝ) (h : fi = true → (∃ i, 0 < y i) ∧ ∃ i, y i < 0) :
    Attained (binTargetL1 C fi S X y) := by
  have e : binTargetL1 C fi S X y = fun v => lossB (binMargin fi S X y v) +
      1 / C * ∑ j, |LinearMap.fst ℝ (Fin p → ℝ) ℝ v j| := by
    funext v
    have := binTarget_eq none fi S X y v
    simp only [binTarget, invC, mul_zero, zero_mul, add_zero] at this
    simp only [binTargetL1, this]
    rfl
  rw [e]
  have ha : 0 < 1 / C := by positivity
  refine attained_add (binMargin fi S X y) (LinearMap.fst ℝ (Fin p → ℝ) ℝ) lossB
    (fun w => 1 / C * ∑ j, |w j|) lossB_continuous (by fun_prop) (K := 0) (pos_inv n) ha
    (fun v => lossB_low' _) (fun v => lossB_nonneg _) (fun w j => ?_) (fun w => ?_) (le_refl 0) ?_
  · rw [add_zero]
    exact mul_le_mul_of_nonneg_left (Finset.single_le_sum (f := fun j => |w j|)
      (fun j _ => abs_nonneg _) (Finset.mem_univ j)) ha.le
  · exact mul_nonneg ha.le (Finset.sum_nonneg fun j _ => abs_nonneg _)
  · intro v hw hall i
    have hw' : ∀ j, maskedW S v.1 j = 0 := fun j => by
      have : v.1 j = 0 := hw j
      simp [maskedW, this]
    have hm : ∀ i, binMargin fi S X y v i = y i * if fi then v.2 else 0 := fun i => by
      simp [binMargin, hw']
    rw [hm]
    cases fi with
    | false => simp
    | true =>
      obtain ⟨⟨i1, h1⟩, i2, h2⟩ := h rfl
      have a1 := hall i1
      have a2 := hall i2
      rw [hm] at a1 a2
      simp only [if_true] at a1 a2 ⊢
      have b1 : 0 ≤ v.2 := by
        by_contra hc
        push Not at hc
        nlinarith
      have b2 : v.2 ≤ 0 := by
        by_contra hc
        push Not at hc
        nlinarith
      rw [le_antisymm b2 b1, mul_zero]

example : Attained (binTargetL1 10 true (fun _ : Fin 1 => true)
    (![fun _ => -1, fun _ => 1] : Fin 2 → Fin 1 → ℝ) ![-1, 1]) :=
  C130_l1 (by norm_num) _ _ _ _ fun _ => ⟨⟨1, by simp⟩, 0, by simp⟩

/-- **C130**, several classes (`multi_class='multinomial'`): the same equivalence, each class with its own
    support. -/
theorem C130_multi_partial [NeZero k] (fi : Bool) (S : Fin k → Fin p → Bool) (X : Fin n → Fin p → ℝ)
    (y : Fin n → Fin k) : Attained (multiTarget none fi S X y) ↔ ¬ SeparableM fi S X y := by
  have e : multiTarget none fi S X y = fun v => lossM (multiMargin fi S X y v) := by
    funext v
    rw [multiTarget_eq]
    simp [invC]
  rw [e]
  constructor
  · rintro ⟨v, hv⟩ ⟨d, e, hw, hall, i, c, hi⟩
    have h1 := hv (v + (d, e))
    simp only [map_add] at h1
    have hs : ∀ i c, multiMargin fi S X y (d, e) (i, c) =
        score (d (y i)) (e (y i)) (X i) - score (d c) (e c) (X i) := by
      intro i c
      rw [multiMargin_score]
      simp only [(masked_of_within (hw _)).1, (masked_of_within (hw _)).2]
    refine absurd h1 (not_le.mpr (lossM_lt (i := i) (c := c) (fun q => ?_) ?_))
    · have := hall q.1 q.2
      rw [Pi.add_apply, show q = (q.1, q.2) from rfl, hs]
      linarith
    · rw [Pi.add_apply, hs]
      linarith
  · intro hsep
    have := attained_add (multiMargin fi S X y)
      (0 : (Fin k → Fin p → ℝ) × (Fin k → ℝ) →ₗ[ℝ] (Fin 0 → ℝ)) lossM (fun _ => 0)
      lossM_continuous continuous_const (K := 0) (pos_inv n) one_pos
      (fun v => lossM_low (margin_self fi S X y v)) (fun v => lossM_nonneg (margin_self fi S X y v))
      (fun _ j => j.elim0) (fun _ => le_refl 0) (le_refl 0) (by
        intro v _ hall q
        by_contra hne
        refine hsep ⟨fun c => maskedW (S c) (v.1 c), fun c => if fi then v.2 c else 0,
          fun c => within_masked fi (S c) (v.1 c, v.2 c), fun i c => ?_, q.1, q.2, ?_⟩
        · have := hall (i, c)
          rw [multiMargin_score] at this
          linarith
        · have : 0 < multiMargin fi S X y v (q.1, q.2) := lt_of_le_of_ne (hall q) (Ne.symm hne)
          rw [multiMargin_score] at this
          linarith)
    simpa using this

/-- Three classes, of which two have a sample: separable. -/
example : ¬ Attained (multiTarget none false (fun _ _ => true)
    (![![1, 0], ![0, 1]] : Fin 2 → Fin 2 → ℝ) (![0, 1] : Fin 2 → Fin 3)) := by
  rw [C130_multi_partial, not_not]
  refine ⟨fun c j => if c.val = j.val then 1 else 0, fun _ => 0,
    fun c => ⟨fun j hj => (by cases hj), fun _ => rfl⟩, fun i c => ?_, 0, 1, ?_⟩
  · fin_cases i <;> fin_cases c <;> norm_num [score, Fin.sum_univ_two]
  · norm_num [score, Fin.sum_univ_two]

/-- A finite `C` and several classes: there is a solution if no intercepts are fitted, or every class is
    present. -/
theorem C130_multi_penalised [NeZero k] {C : ℝ} (hC : 0 < C) (fi : Bool) (S : Fin k → Fin p → Bool)
    (X : Fin n → Fin p → ℝ) (y : Fin n → Fin k) (h : fi = true → ∀ c, ∃ i, y i = c) :
    Attained (multiTarget (some C) fi S X y) := by
  have e : multiTarget (some C) fi S X y = fun v => lossM (multiMargin fi S X y v) +
      1 / 2 * (1 / C) * ∑ q, maskedLM S v q * maskedLM S v q :=
    funext fun v => multiTarget_eq _ _ _ _ _ v
  rw [e]
  have ha : 0 < 1 / C := by positivity
  refine attained_add (multiMargin fi S X y) (maskedLM S) lossM
    (fun w => 1 / 2 * (1 / C) * ∑ q, w q * w q) lossM_continuous (by fun_prop) (pos_inv n) ha
    (fun v => lossM_low (margin_self fi S X y v)) (fun v => lossM_nonneg (margin_self fi S X y v))
    (quad_low ha) (fun w => ?_) (half_pos ha).le ?_
  · exact mul_nonneg (by positivity) (Finset.sum_nonneg fun j _ => mul_self_nonneg _)
  · intro v hw hall q
    have hw' : ∀ c j, maskedW (S c) (v.1 c) j = 0 := fun c j => hw (c, j)
    have hm : ∀ i c, multiMargin fi S X y v (i, c) =
        (if fi then v.2 (y i) else 0) - if fi then v.2 c else 0 := fun i c => by
      simp [multiMargin, multiEta, hw']
    obtain ⟨i, c⟩ := q
    rw [hm]
    cases fi with
    | false => simp
    | true =>
      obtain ⟨i', hi'⟩ := h rfl c
      have a1 := hall (i, c)
      have a2 := hall (i', y i)
      rw [hm] at a1 a2
      simp only [if_true, hi'] at a1 a2 ⊢
      linarith

example : Attained (multiTarget (some 1) true (fun _ _ => true)
    (![![1, 0], ![0, 1], ![-1, -1]] : Fin 3 → Fin 2 → ℝ) (![0, 1, 2] : Fin 3 → Fin 3)) :=
  C130_multi_penalised one_pos _ _ _ _ fun _ c => ⟨c, by fin_cases c <;> rfl⟩

/-- The L1 penalty and several classes. -/
theorem C130_multi_l1 [NeZero k] {C : ℝ} (hC : 0 < C) (fi : Bool) (S : Fin k → Fin p → Bool)
    (X : Fin n → Fin p → ℝ) (y : Fin n → Fin k) (h : fi = true → ∀ c, ∃ i, y i = c) :
    Attained (multiTargetL1 C fi S X y) := by
  let W : (Fin k → Fin p → ℝ) × (Fin k → ℝ) →ₗ[ℝ] (Fin k × Fin p → ℝ) :=
    { toFun := fun v q => v.1 q.1 q.2, map_add' := fun _ _ => rfl, map_smul' := fun _ _ => rfl }
  have e : multiTargetL1 C fi S X y = fun v => lossM (multiMargin fi S X y v) +
      1 / C * ∑ q, |W v q| := by
    funext v
    rw [multiTargetL1_eq, Fintype.sum_prod_type]
    rfl
  rw [e]
  have ha : 0 < 1 / C := by positivity
  refine attained_add (multiMargin fi S X y) W lossM
    (fun w => 1 / C * ∑ q, |w q|) lossM_continuous (by fun_prop) (K := 0) (pos_inv n) ha
    (fun v => lossM_low (margin_self fi S X y v)) (fun v => lossM_nonneg (margin_self fi S X y v))
    (fun w j => ?_) (fun w => ?_) (le_refl 0) ?_
  · rw [add_zero]
    exact mul_le_mul_of_nonneg_left (Finset.single_le_sum (f := fun j => |w j|)
      (fun j _ => abs_nonneg _) (Finset.mem_univ j)) ha.le
  · exact mul_nonneg ha.le (Finset.sum_nonneg fun j _ => abs_nonneg _)
  · intro v hw hall q
    have hw' : ∀ c j, maskedW (S c) (v.1 c) j = 0 := fun c j => by
      have : v.1 c j = 0 := hw (c, j)
      simp [maskedW, this]
    have hm : ∀ i c, multiMargin fi S X y v (i, c) =
        (if fi then v.2 (y i) else 0) - if fi then v.2 c else 0 := fun i c => by
      simp [multiMargin, multiEta, hw']
    obtain ⟨i, c⟩ := q
    rw [hm]
    cases fi with
    | false => simp
    | true =>
      obtain ⟨i', hi'⟩ := h rfl c
      have a1 := hall (i, c)
      have a2 := hall (i', y i)
      rw [hm] at a1 a2
      simp only [if_true, hi'] at a1 a2 ⊢
      linarith

example : Attained (multiTargetL1 1 true (fun _ _ => true)
    (![![1, 0], ![0, 1], ![-1, -1]] : Fin 3 → Fin 2 → ℝ) (![0, 1, 2] : Fin 3 → Fin 3)) :=
  C130_multi_l1 one_pos _ _ _ _ fun _ c => ⟨c, by fin_cases c <;> rfl⟩

/-- Two classes: any two solutions give every training sample the same score, hence the same probability,
    whatever the penalty; with a finite `C` of the L2 penalty they have the same coefficients. -/
theorem C130_unique (fi : Bool) (S : Fin p → Bool) (X : Fin n → Fin p → ℝ) {y : Fin n → ℝ}
    (hy : ∀ i, y i ≠ 0) {C : Option ℝ} (hC : ∀ r, C = some r → 0 < r) {u v : (Fin p → ℝ) × ℝ}
    (hu : ∀ x, binTarget C fi S X y u ≤ binTarget C fi S X y x)
    (hv : ∀ x, binTarget C fi S X y v ≤ binTarget C fi S X y x) :
    (∀ i, score (maskedW S u.1) (if fi then u.2 else 0) (X i) =
      score (maskedW S v.1) (if fi then v.2 else 0) (X i)) ∧
    (C ≠ none → maskedW S u.1 = maskedW S v.1) := by
  have hinv : 0 ≤ invC C := by
    cases C with
    | none => exact le_refl _
    | some r => exact (one_div_pos.mpr (hC r rfl)).le
  simp only [binTarget_eq] at hu hv
  obtain ⟨h1, h2⟩ := unique_mid (binMargin fi S X y) lossB
    (fun u v => 1 / 8 * invC C * ∑ j, (maskedL S u j - maskedL S v j) * (maskedL S u j - maskedL S v j))
    (fun v => 1 / 2 * invC C * ∑ j, maskedL S v j * maskedL S v j)
    (fun u v h => by rw [map_add, map_smul, map_smul]; exact lossB_mid_lt h)
    (fun u v => (quad_mid (maskedL S) (invC C) u v).le)
    (fun u v => mul_nonneg (by linarith) (Finset.sum_nonneg fun j _ => mul_self_nonneg _)) hu hv
  refine ⟨fun i => ?_, fun hne => ?_⟩
  · have := congrFun h1 i
    rw [binMargin_masked, binMargin_masked] at this
    exact mul_left_cancel₀ (hy i) this
  · cases C with
    | none => exact absurd rfl hne
    | some r =>
      have hr : 0 < 1 / 8 * invC (some r) := mul_pos (by norm_num) (one_div_pos.mpr (hC r rfl))
      have hs := (mul_eq_zero.mp h2).resolve_left hr.ne'
      rw [Finset.sum_eq_zero_iff_of_nonneg fun j _ => mul_self_nonneg _] at hs
      exact funext fun j => sub_eq_zero.mp (mul_self_eq_zero.mp (hs j (Finset.mem_univ j)))

/-- A repeated feature and two samples that cannot be separated: different solutions, the same scores. -/
example : ∃ u v : (Fin 2 → ℝ) × ℝ, u.1 ≠ v.1 ∧
    (∀ x : (Fin 2 → ℝ) × ℝ, binTarget none false (fun _ : Fin 2 => true) (fun _ _ => 1) ![1, -1] u ≤
      binTarget none false (fun _ : Fin 2 => true) (fun _ _ => 1) ![1, -1] x) ∧
    (∀ x : (Fin 2 → ℝ) × ℝ, binTarget none false (fun _ : Fin 2 => true) (fun _ _ => 1) ![1, -1] v ≤
      binTarget none false (fun _ : Fin 2 => true) (fun _ _ => 1) ![1, -1] x) ∧
    score u.1 0 (fun _ => 1) = score v.1 0 (fun _ => 1) := by
  have hsep : ¬ Separable false (fun _ : Fin 2 => true) (fun _ _ => 1 : Fin 2 → Fin 2 → ℝ) ![1, -1] := by
    rintro ⟨d, e, -, hall, i, hi⟩
    have h0 := hall 0
    have h1 := hall 1
    simp [score] at h0 h1
    fin_cases i <;> simp [score] at hi <;> linarith
  obtain ⟨u, hu⟩ := (C130_binary_partial _ _ _ _).mpr hsep
  have hv : ∀ x, binTarget none false (fun _ => true) (fun _ _ => 1 : Fin 2 → Fin 2 → ℝ) ![1, -1]
      (u.1 + ![1, -1], u.2) ≤ binTarget none false (fun _ : Fin 2 => true) (fun _ _ => 1) ![1, -1] x := by
    intro x
    refine le_of_eq_of_le ?_ (hu x)
    rw [binTarget_eq, binTarget_eq]
    have : binMargin false (fun _ => true) (fun _ _ => 1 : Fin 2 → Fin 2 → ℝ) ![1, -1]
        (u.1 + ![1, -1], u.2) = binMargin false (fun _ => true) (fun _ _ => 1) ![1, -1] u := by
      funext i
      simp only [binMargin, maskedW, Fin.sum_univ_two, LinearMap.coe_mk, AddHom.coe_mk, if_true,
        Pi.add_apply, show (![1, -1] : Fin 2 → ℝ) 0 = 1 from rfl, show (![1, -1] : Fin 2 → ℝ) 1 = -1 from rfl]
      ring
    rw [this]
    simp [invC]
  refine ⟨u, _, fun h => ?_, hu, hv, ?_⟩
  · have := congrFun h 0
    simp at this
  · have := (C130_unique false _ _ (fun i => by fin_cases i <;> simp) (fun r h => by cases h) hu hv).1 0
    exact this

/-- The same for the L1 penalty of the selection model: the scores are determined. -/
theorem C130_l1_unique (fi : Bool) (S : Fin p → Bool) (X : Fin n → Fin p → ℝ) {y : Fin n → ℝ}
    (hy : ∀ i, y i ≠ 0) {C : ℝ} (hC : 0 < C) {u v : (Fin p → ℝ) × ℝ}
    (hu : ∀ x, binTargetL1 C fi S X y u ≤ binTargetL1 C fi S X y x)
    (hv : ∀ x, binTargetL1 C fi S X y v ≤ binTargetL1 C fi S X y x) (i : Fin n) :
    score (maskedW S u.1) (if fi then u.2 else 0) (X i) =
      score (maskedW S v.1) (if fi then v.2 else 0) (X i) := by
  simp only [binTargetL1_eq] at hu hv
  have h1 := (unique_mid (binMargin fi S X y) lossB (fun _ _ => 0) (fun v => 1 / C * ∑ j, |v.1 j|)
    (fun u v h => by rw [map_add, map_smul, map_smul]; exact lossB_mid_lt h)
    (fun u v => by
      have := mul_le_mul_of_nonneg_left (abs_mid u.1 v.1) (one_div_pos.mpr hC).le
      simp only [Prod.fst_add, Prod.smul_fst, Pi.add_apply, Pi.smul_apply, smul_eq_mul, sub_zero]
      linarith) (fun _ _ => le_refl 0) hu hv).1
  have := congrFun h1 i
  rw [binMargin_masked, binMargin_masked] at this
  exact mul_left_cancel₀ (hy i) this

/-- Two samples of one feature: whatever two runs return, if both are solutions they agree on the samples. -/
example : ∃ u : (Fin 1 → ℝ) × ℝ, ∀ v : (Fin 1 → ℝ) × ℝ,
    (∀ x : (Fin 1 → ℝ) × ℝ, binTargetL1 10 true (fun _ : Fin 1 => true) (![fun _ => -1, fun _ => 1] : Fin 2 → Fin 1 → ℝ) ![-1, 1] v ≤
      binTargetL1 10 true (fun _ : Fin 1 => true) (![fun _ => -1, fun _ => 1] : Fin 2 → Fin 1 → ℝ) ![-1, 1] x) →
    score (maskedW (fun _ => true) u.1) u.2 (fun _ => 1) =
      score (maskedW (fun _ => true) v.1) v.2 (fun _ => 1) := by
  obtain ⟨u, hu⟩ := C130_l1 (C := 10) (by norm_num) true (fun _ : Fin 1 => true)
    (![fun _ => -1, fun _ => 1] : Fin 2 → Fin 1 → ℝ) ![-1, 1] fun _ => ⟨⟨1, by simp⟩, 0, by simp⟩
  exact ⟨u, fun v hv => C130_l1_unique true _ _ (fun i => by fin_cases i <;> simp) (by norm_num) hu hv 1⟩

/-- Several classes: any two solutions give every training sample the same probabilities, with and
    without the L2 penalty; with it they have the same coefficients. -/
theorem C130_multi_unique (fi : Bool) (S : Fin k → Fin p → Bool) (X : Fin n → Fin p → ℝ)
    (y : Fin n → Fin k) {C : Option ℝ} (hC : ∀ r, C = some r → 0 < r)
    {u v : (Fin k → Fin p → ℝ) × (Fin k → ℝ)}
    (hu : ∀ x, multiTarget C fi S X y u ≤ multiTarget C fi S X y x)
    (hv : ∀ x, multiTarget C fi S X y v ≤ multiTarget C fi S X y x) :
    (∀ i c, classProb (fun c => score (maskedW (S c) (u.1 c)) (if fi then u.2 c else 0) (X i)) c =
      classProb (fun c => score (maskedW (S c) (v.1 c)) (if fi then v.2 c else 0) (X i)) c) ∧
    (C ≠ none → ∀ c, maskedW (S c) (u.1 c) = maskedW (S c) (v.1 c)) := by
  have hinv : 0 ≤ invC C := by
    cases C with
    | none => exact le_refl _
    | some r => exact (one_div_pos.mpr (hC r rfl)).le
  simp only [multiTarget_eq] at hu hv
  obtain ⟨h1, h2⟩ := unique_mid (multiMargin fi S X y) lossM
    (fun u v => 1 / 8 * invC C * ∑ j, (maskedLM S u j - maskedLM S v j) * (maskedLM S u j - maskedLM S v j))
    (fun v => 1 / 2 * invC C * ∑ j, maskedLM S v j * maskedLM S v j)
    (fun u v h => by
      rw [map_add, map_smul, map_smul]
      exact lossM_mid_lt (margin_self fi S X y u) (margin_self fi S X y v) h)
    (fun u v => (quad_mid (maskedLM S) (invC C) u v).le)
    (fun u v => mul_nonneg (by linarith) (Finset.sum_nonneg fun j _ => mul_self_nonneg _)) hu hv
  refine ⟨fun i c => ?_, fun hne c => ?_⟩
  · have := fun c => congrFun h1 (i, c)
    simp only [multiMargin_score] at this
    rw [classProb_margin _ (y i), classProb_margin _ (y i)]
    simp only [this]
  · cases C with
    | none => exact absurd rfl hne
    | some r =>
      have hr : 0 < 1 / 8 * invC (some r) := mul_pos (by norm_num) (one_div_pos.mpr (hC r rfl))
      have hs := (mul_eq_zero.mp h2).resolve_left hr.ne'
      rw [Finset.sum_eq_zero_iff_of_nonneg fun j _ => mul_self_nonneg _] at hs
      exact funext fun j => sub_eq_zero.mp (mul_self_eq_zero.mp (hs (c, j) (Finset.mem_univ _)))

/-- Three classes: the solution has the coefficients of every other one. -/
example : ∃ u : (Fin 3 → Fin 2 → ℝ) × (Fin 3 → ℝ), ∀ v : (Fin 3 → Fin 2 → ℝ) × (Fin 3 → ℝ),
    (∀ x : (Fin 3 → Fin 2 → ℝ) × (Fin 3 → ℝ), multiTarget (some 1) true (fun _ _ => true) (![![1, 0], ![0, 1], ![-1, -1]]) (![0, 1, 2]) v ≤
      multiTarget (some 1) true (fun _ _ => true) (![![1, 0], ![0, 1], ![-1, -1]]) (![0, 1, 2]) x) →
    ∀ c, maskedW (fun _ => true) (u.1 c) = maskedW (fun _ => true) (v.1 c) := by
  obtain ⟨u, hu⟩ := C130_multi_penalised one_pos true (fun _ _ => true)
    (![![1, 0], ![0, 1], ![-1, -1]] : Fin 3 → Fin 2 → ℝ) (![0, 1, 2] : Fin 3 → Fin 3)
    fun _ c => ⟨c, by fin_cases c <;> rfl⟩
  exact ⟨u, fun v hv => (C130_multi_unique true _ _ _ (fun r h => by cases h; exact one_pos) hu hv).2
    (by simp)⟩

/-- Several classes with the L1 penalty: the probabilities are determined. -/
theorem C130_multi_l1_unique (fi : Bool) (S : Fin k → Fin p → Bool) (X : Fin n → Fin p → ℝ)
    (y : Fin n → Fin k) {C : ℝ} (hC : 0 < C) {u v : (Fin k → Fin p → ℝ) × (Fin k → ℝ)}
    (hu : ∀ x, multiTargetL1 C fi S X y u ≤ multiTargetL1 C fi S X y x)
    (hv : ∀ x, multiTargetL1 C fi S X y v ≤ multiTargetL1 C fi S X y x) (i : Fin n) (c : Fin k) :
    classProb (fun c => score (maskedW (S c) (u.1 c)) (if fi then u.2 c else 0) (X i)) c =
      classProb (fun c => score (maskedW (S c) (v.1 c)) (if fi then v.2 c else 0) (X i)) c := by
  simp only [multiTargetL1_eq] at hu hv
  have h1 := (unique_mid (multiMargin fi S X y) lossM (fun _ _ => 0)
    (fun v => 1 / C * ∑ c, ∑ j, |v.1 c j|)
    (fun u v h => by
      rw [map_add, map_smul, map_smul]
      exact lossM_mid_lt (margin_self fi S X y u) (margin_self fi S X y v) h)
    (fun u v => by
      have := mul_le_mul_of_nonneg_left (abs_mid (fun q : Fin k × Fin p => u.1 q.1 q.2)
        (fun q : Fin k × Fin p => v.1 q.1 q.2)) (one_div_pos.mpr hC).le
      simp only [Fintype.sum_prod_type] at this
      simp only [Prod.fst_add, Prod.smul_fst, Pi.add_apply, Pi.smul_apply, smul_eq_mul, sub_zero]
      linarith) (fun _ _ => le_refl 0) hu hv).1
  have := fun c => congrFun h1 (i, c)
  simp only [multiMargin_score] at this
  rw [classProb_margin _ (y i), classProb_margin _ (y i)]
  simp only [this]

/-- Three classes: adding one to all intercepts gives another solution. -/
example : ∃ u v : (Fin 3 → Fin 2 → ℝ) × (Fin 3 → ℝ), u ≠ v ∧
    ∀ i c, classProb (fun c => score (maskedW (fun _ => true) (u.1 c)) (u.2 c)
        ((![![1, 0], ![0, 1], ![-1, -1]] : Fin 3 → Fin 2 → ℝ) i)) c =
      classProb (fun c => score (maskedW (fun _ => true) (v.1 c)) (v.2 c)
        ((![![1, 0], ![0, 1], ![-1, -1]] : Fin 3 → Fin 2 → ℝ) i)) c := by
  obtain ⟨u, hu⟩ := C130_multi_l1 one_pos true (fun _ _ => true)
    (![![1, 0], ![0, 1], ![-1, -1]] : Fin 3 → Fin 2 → ℝ) (![0, 1, 2] : Fin 3 → Fin 3)
    fun _ c => ⟨c, by fin_cases c <;> rfl⟩
  have hv : ∀ x, multiTargetL1 1 true (fun _ _ => true)
      (![![1, 0], ![0, 1], ![-1, -1]] : Fin 3 → Fin 2 → ℝ) (![0, 1, 2] : Fin 3 → Fin 3)
      (u.1, fun c => u.2 c + 1) ≤ multiTargetL1 1 true (fun _ _ => true)
        (![![1, 0], ![0, 1], ![-1, -1]] : Fin 3 → Fin 2 → ℝ) (![0, 1, 2] : Fin 3 → Fin 3) x := by
    intro x
    refine le_of_eq_of_le ?_ (hu x)
    rw [multiTargetL1_eq, multiTargetL1_eq]
    congr 2
    funext q
    simp only [multiMargin, multiEta, LinearMap.coe_mk, AddHom.coe_mk, if_true]
    ring
  refine ⟨u, (u.1, fun c => u.2 c + 1), fun h => ?_, fun i c => ?_⟩
  · have := congrFun (congrArg Prod.snd h) 0
    simp at this
  · exact C130_multi_l1_unique true _ _ _ one_pos hu hv i c

end Verif.Props
