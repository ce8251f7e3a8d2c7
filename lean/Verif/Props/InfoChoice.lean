import Mathlib.Tactic.FinCases
import Verif.Lemmas.InfoChoice
import Verif.Props.Scaling
/-!
UoI linear regressors that choose candidates by an information criterion.
-/
namespace Verif.Props
open Verif.Py Verif.HeldOut Verif.Scaling Verif.Recovery Verif.InfoChoice Verif.Spec.Recovery
  Verif.Spec.InfoChoice

variable {n p m : Nat}

/-- **C132**, when no candidate predicts all training responses exactly: the choice by BIC, AIC or AICc is
    the first candidate with the least `m log (rss / m)` plus price of its features.  Missing: exact
    candidates, for which the number of features does not count (`C132_exact`, `C132_negation`). -/
theorem C132_best_partial {metric : String} (hm : Known metric) (hpos : m ≠ 0) {y : Fin m → ℝ}
    {cands : List ((Fin m → ℝ) × Nat)} (h0 : cands ≠ []) (hex : ∀ c ∈ cands, ∃ r, y r ≠ c.1 r) :
    ∃ i, chooseIC metric y cands = .ok i ∧ IsFirstCheapest metric y cands i := by
  obtain ⟨i, hi, b, hb, hmax, hfirst⟩ := chooseIC_first hm hpos y h0
  have hne : ∀ c ∈ cands, rss y c.1 ≠ 0 := fun c hc h => by
    obtain ⟨r, hr⟩ := hex c hc
    exact hr (rss_eq_zero.mp h r)
  rw [List.getElem?_map] at hb
  cases hc : cands[i]? with
  | none => rw [hc] at hb; cases hb
  | some c =>
    rw [hc] at hb
    have hcm := List.mem_of_getElem? hc
    simp only [Option.map_some, Option.some.injEq, if_neg (hne c hcm)] at hb
    subst hb
    refine ⟨i, hi, c, hc, fun d hd => ?_, fun j hj d hd => ?_⟩
    · have := hmax _ (List.mem_map.mpr ⟨d, hd, rfl⟩)
      rw [if_neg (hne d hd)] at this
      simp only [ltExt, decide_eq_false_iff_not, not_lt] at this
      linarith
    · have := hfirst j hj _ (by rw [List.getElem?_map, hd]; rfl)
      simp only [if_neg (hne d (List.mem_of_getElem? hd)), ltExt, decide_eq_true_eq] at this
      linarith

/-- Four rows: a feature that takes the squared error from 4 to 1 pays its price for BIC. -/
example : chooseIC "BIC" ![2, 0, 0, 0] [((fun _ => 0), 0), (![1, 0, 0, 0], 1)] = .ok 1 := by
  obtain ⟨i, hi, c, hc, hle, -⟩ := C132_best_partial (metric := "BIC") (.inl rfl) (m := 4) (by decide)
    (y := ![2, 0, 0, 0]) (cands := [((fun _ => 0), 0), (![1, 0, 0, 0], 1)]) (by simp) (fun c hc => by
    simp only [List.mem_cons, List.not_mem_nil, or_false] at hc
    rcases hc with rfl | rfl
    · exact ⟨0, by simp⟩
    · exact ⟨0, by simp⟩)
  match i with
  | 0 =>
    obtain rfl : _ = c := Option.some.inj hc
    have := hle (![1, 0, 0, 0], 1) (by simp)
    have h4 : 0 < Real.log 4 := Real.log_pos (by norm_num)
    have e0 : rss ![2, 0, 0, 0] (fun _ : Fin 4 => 0) = 4 := by
      rw [rss, Fin.sum_univ_four]
      change (2 - 0 : ℝ) * (2 - 0) + (0 - 0) * (0 - 0) + (0 - 0) * (0 - 0) + (0 - 0) * (0 - 0) = 4
      norm_num
    have e1 : rss ![2, 0, 0, 0] (![1, 0, 0, 0] : Fin 4 → ℝ) = 1 := by
      rw [rss, Fin.sum_univ_four]
      change (2 - 1 : ℝ) * (2 - 1) + (0 - 0) * (0 - 0) + (0 - 0) * (0 - 0) + (0 - 0) * (0 - 0) = 1
      norm_num
    simp only [cost, e0, e1, price] at this
    rw [show (1 / (4 : Nat) : ℝ) = 4⁻¹ by norm_num, Real.log_inv] at this
    norm_num at this
    rw [if_neg (by decide)] at this
    linarith
  | 1 => exact hi
  | _ + 2 => cases hc

/-- **C132**, one estimation bootstrap: if no candidate predicts all its training responses exactly, the
    estimate is that of the first candidate with the least cost, where a candidate pays for as many features
    as it selects.  Missing: exact candidates (`C132_exact`, `C132_negation`). -/
theorem C132_estimate_partial {metric : String} (hm : Known metric) (ols : Ols ℝ n p) (X : Fin n → Fin p → ℝ)
    (y : Fin n → ℝ) {supports : List (Fin p → Bool)} (h0 : supports ≠ []) {train : List (Fin n)}
    (hpos : train ≠ []) (hne : ∀ S ∈ supports, ∃ j, S j = true)
    (hex : ∀ S ∈ supports, ∃ i ∈ train, y i ≠ affine (ols X y train S).coef (ols X y train S).intercept (X i)) :
    ∃ (i : Nat) (S : Fin p → Bool), supports[i]? = some S ∧
      bestEstimateIC metric ols X y supports train = .ok (ols X y train S).coef ∧
      (∀ T ∈ supports,
        cost metric (fun r => y (train.get r))
          (fun r => affine (ols X y train S).coef (ols X y train S).intercept (X (train.get r)),
            (List.finRange p).countP S) ≤
        cost metric (fun r => y (train.get r))
          (fun r => affine (ols X y train T).coef (ols X y train T).intercept (X (train.get r)),
            (List.finRange p).countP T)) ∧
      ∀ j < i, ∀ T, supports[j]? = some T →
        cost metric (fun r => y (train.get r))
          (fun r => affine (ols X y train S).coef (ols X y train S).intercept (X (train.get r)),
            (List.finRange p).countP S) <
        cost metric (fun r => y (train.get r))
          (fun r => affine (ols X y train T).coef (ols X y train T).intercept (X (train.get r)),
            (List.finRange p).countP T) := by
  have hc : ∀ S ∈ supports, candidate ols X y train S = ols X y train S := fun S hS => by
    unfold candidate
    rw [if_pos (hne S hS)]
  have hk : ∀ S : Fin p → Bool, numFeatures S = (List.finRange p).countP S := fun S => by
    unfold numFeatures
    rw [List.countP_eq_length_filter, Fin.univ_def]
    simp [Finset.card, Finset.filter]
  set f : (Fin p → Bool) → (Fin train.length → ℝ) × Nat := fun S =>
      (fun r => linPred (candidate ols X y train S).coef (candidate ols X y train S).intercept
        (X (train.get r)), numFeatures S) with hf
  have hfS : ∀ S ∈ supports, f S = (fun r => affine (ols X y train S).coef (ols X y train S).intercept
      (X (train.get r)), (List.finRange p).countP S) := fun S hS => by
    simp only [hf, hc S hS, hk]
    rfl
  obtain ⟨i, hi, c, hci, hmin, hfirst⟩ := C132_best_partial hm (m := train.length)
    (by simpa using hpos) (y := fun r => y (train.get r)) (cands := supports.map f) (by simpa using h0) (by
      intro c hcm
      obtain ⟨S, hS, rfl⟩ := List.mem_map.mp hcm
      obtain ⟨a, ha, hne⟩ := hex S hS
      obtain ⟨r, rfl⟩ := List.get_of_mem ha
      refine ⟨r, ?_⟩
      rw [hfS S hS]
      exact hne)
  rw [List.getElem?_map] at hci
  cases hS : supports[i]? with
  | none => rw [hS] at hci; cases hci
  | some S =>
    rw [hS] at hci
    obtain rfl : f S = c := Option.some.inj hci
    have hSm := List.mem_of_getElem? hS
    refine ⟨i, S, hS, ?_, fun T hT => ?_, fun j hj T hT => ?_⟩
    · unfold bestEstimateIC
      rw [hi]
      simp only [hS, hc S hSm]
    · rw [← hfS S hSm, ← hfS T hT]
      exact hmin _ (List.mem_map.mpr ⟨T, hT, rfl⟩)
    · rw [← hfS S hSm, ← hfS T (List.mem_of_getElem? hT)]
      exact hfirst j hj _ (by rw [List.getElem?_map, hT]; rfl)

/-- Two equal columns: the candidate with both features and the one with the first feature alone predict the
    same, and the smaller one is chosen. -/
example : bestEstimateIC "AIC" (fun _ _ _ S => if S 1 then ⟨![1/2, 1/2], 0⟩ else ⟨![1, 0], 0⟩)
    ![![1, 1], ![0, 0]] ![1, 1] [![true, true], ![true, false]] [0, 1] = .ok ![1, 0] := by
  obtain ⟨i, S, hS, hb, hmin, -⟩ := C132_estimate_partial (metric := "AIC") (.inr (.inl rfl))
    (fun _ _ _ S => if S 1 then ⟨![1/2, 1/2], 0⟩ else ⟨![1, 0], 0⟩) (![![1, 1], ![0, 0]] : Fin 2 → Fin 2 → ℝ)
    ![1, 1] (supports := [![true, true], ![true, false]]) (by simp) (train := [0, 1]) (by simp)
    (fun S hS => ⟨0, by
      simp only [List.mem_cons, List.not_mem_nil, or_false] at hS
      rcases hS with rfl | rfl <;> rfl⟩)
    (fun S hS => ⟨1, by simp, by
      simp only [affine, Fin.sum_univ_two]
      split_ifs <;> simp⟩)
  match i with
  | 0 =>
    obtain rfl : _ = S := Option.some.inj hS
    have := hmin ![true, false] (by simp)
    simp [cost, price, affine, rss, List.countP_cons, List.finRange_succ] at this
    norm_num at this
    rw [one_div, Real.log_inv] at this
    linarith
  | 1 =>
    obtain rfl : _ = S := Option.some.inj hS
    simpa using hb
  | _ + 2 => cases hS

/-- C132.  If some candidate predicts the training responses exactly, the first such candidate is chosen,
    whatever the numbers of features. -/
theorem C132_exact {metric : String} (hm : Known metric) (hpos : m ≠ 0) {y : Fin m → ℝ}
    {cands : List ((Fin m → ℝ) × Nat)} (h : ∃ c ∈ cands, ∀ r, y r = c.1 r) :
    ∃ i c, chooseIC metric y cands = .ok i ∧ cands[i]? = some c ∧ (∀ r, y r = c.1 r) ∧
      ∀ j < i, ∀ d, cands[j]? = some d → ∃ r, y r ≠ d.1 r :=
  chooseIC_exact hm hpos h

/-- The second candidate is exact. -/
example : ∃ i c, chooseIC "AIC" ![2, 0] [((fun _ => 1), 0), (![2, 0], 7), (![2, 0], 1)] = .ok i ∧
    [((fun _ => 1 : Fin 2 → ℝ), 0), (![2, 0], 7), (![2, 0], 1)][i]? = some c ∧
    (∀ r, (![2, 0] : Fin 2 → ℝ) r = c.1 r) ∧
    ∀ j < i, ∀ d, [((fun _ => 1 : Fin 2 → ℝ), 0), (![2, 0], 7), (![2, 0], 1)][j]? = some d →
      ∃ r, (![2, 0] : Fin 2 → ℝ) r ≠ d.1 r :=
  C132_exact (.inr (.inl rfl)) (by decide) ⟨(![2, 0], 7), by simp, fun _ => rfl⟩

/-- C132.  Any other metric is a `ValueError`. -/
theorem C132_unknown {metric : String} (hm : ¬ Known metric) (y : Fin m → ℝ)
    {cands : List ((Fin m → ℝ) × Nat)} (h0 : cands ≠ []) :
    chooseIC metric y cands = .error .valueError := by
  have e : ∀ l k, criterion metric l k m = .error .valueError := by
    intro l k
    simp only [Known, not_or] at hm
    unfold criterion
    rw [if_neg hm.1, if_neg hm.2.1, if_neg hm.2.2]
  cases cands with
  | nil => exact absurd rfl h0
  | cons c cs =>
    have : icScore metric y c.1 c.2 = .error .valueError := by
      unfold icScore
      generalize (if m = 0 then Ext.nan else Utils.llNormal y c.1) = ll
      cases ll <;> simp only [negated, e]
    unfold chooseIC
    rw [mapE, this]

example : chooseIC "aic" ![2, 0] [((fun _ => 1), 0)] = .error .valueError :=
  C132_unknown (by simp [Known]) _ (by simp)

/-- C132.  On a constant response no candidate is chosen: whatever the metric, the candidates and the
    bootstraps, all coefficients are zero, and with `fit_intercept` every input is predicted as that constant. -/
theorem C132_constant [NeZero n] (metric : String) (ols : Ols ℝ n p) (std fi : Bool)
    (supports : List (Fin p → Bool)) (trains : List (List (Fin n))) (X : Fin n → Fin p → ℝ) (c : ℝ) :
    ∃ w b, fitIC metric ols std fi supports trains X (fun _ => c) = .ok (w, b) ∧ (∀ j, w j = 0) ∧
      (fi = true → ∀ x, affine w b x = c) := by
  have hc : ∀ i i' : Fin n, (linPre std fi X fun _ => c).2 i = (linPre std fi X fun _ => c).2 i' := by
    intro i i'; cases std <;> simp [linPre, Scaler.apply, asColumn]
  obtain ⟨h1, h2⟩ := C18_linear_partial (fun _ _ _ => (1 : ℝ)) std fi X c
  refine ⟨_, _, ?_, h1, h2⟩
  unfold fitIC linFit
  simp only [if_pos hc]

example : ∃ w b, fitIC "none" (fun _ _ _ _ => ⟨fun _ => 1, 2⟩) true true [] [] (![![1], ![2]] : Fin 2 → Fin 1 → ℝ)
    (fun _ => 3) = .ok (w, b) ∧ (∀ j, w j = 0) ∧ (true = true → ∀ x, affine w b x = 3) :=
  C132_constant ..

/-- **C132**, recovery: the response is an affine function of the features, and for more than half of the
    estimation bootstraps some candidate holds all features of the truth, the training rows tell every
    candidate apart from the truth, and the response varies there.  Then `fit` with BIC, AIC or AICc returns
    exactly the true coefficients and intercept, standardized or not.  Missing: rows that do not tell the
    candidates apart (`C132_negation`). -/
theorem C132_recovery_partial {metric : String} (hm : Known metric) {ols : Ols ℝ n p} {std fi : Bool}
    {X : Fin n → Fin p → ℝ} {y : Fin n → ℝ} {beta : Fin p → ℝ} {c : ℝ} {supports : List (Fin p → Bool)}
    {trains : List (List (Fin n))}
    (hols : ∀ b ∈ trains, ∀ S ∈ supports, (∃ j, S j = true) →
      IsLeastSquares fi (linPre std fi X y).1 (linPre std fi X y).2 b S
        (ols (linPre std fi X y).1 (linPre std fi X y).2 b S).coef
        (ols (linPre std fi X y).1 (linPre std fi X y).2 b S).intercept)
    (hy : ∀ i, y i = affine beta c (X i)) (hc : fi = false → c = 0)
    (hg : ∃ g : List (List (Fin n)), g.Sublist trains ∧ trains.length < 2 * g.length ∧
      ∀ b ∈ g, GoodTrain fi X y beta supports b) :
    fitIC metric ols std fi supports trains X y = .ok (beta, c) := by
  have hg' := hg
  obtain ⟨g, hsub, hlen, hgood⟩ := hg
  obtain ⟨b, hb⟩ : ∃ b, b ∈ g := by
    cases g with
    | nil => simp at hlen
    | cons b g => exact ⟨b, List.mem_cons_self ..⟩
  obtain ⟨i, -, i', -, hne⟩ := (hgood b hb).varies
  have hn : n ≠ 0 := fun h => by subst h; exact i.elim0
  cases std with
  | false =>
    have hp : linPre false fi X y = (X, y) := rfl
    unfold fitIC
    rw [hp] at hols
    simp only [hp]
    rw [if_neg fun h => hne (h i i'), estimateIC_good hm hols hy hc hg']
    simp only [linIntercept_exact hn hy hc]
    rfl
  | true =>
    have hX : ∀ j, (standardScaler fi X).scale j ≠ 0 := standardScaler_scale_ne fi X
    have hs : (standardScaler fi (asColumn y)).scale 0 ≠ 0 := standardScaler_scale_ne fi _ 0
    have hy' : ∀ k, (linPre true fi X y).2 k =
        affine (scaledTruth fi (standardScaler fi X) (standardScaler fi (asColumn y)) beta c).1
          (scaledTruth fi (standardScaler fi X) (standardScaler fi (asColumn y)) beta c).2
          ((linPre true fi X y).1 k) := by
      intro k
      have := scaledTruth_spec hX hs (by rfl) (by rfl) beta c hc (X k)
      rw [← hy k] at this
      exact this
    have hc' : fi = false → (scaledTruth fi (standardScaler fi X) (standardScaler fi (asColumn y))
        beta c).2 = 0 := fun h => by subst h; rfl
    have inj : ∀ k k', y k ≠ y k' → (linPre true fi X y).2 k ≠ (linPre true fi X y).2 k' := by
      intro k k' hkk h
      exact hkk (scaler_apply_inj _ hs h)
    have hg2 : ∃ g : List (List (Fin n)), g.Sublist trains ∧ trains.length < 2 * g.length ∧
        ∀ b ∈ g, GoodTrain fi (linPre true fi X y).1 (linPre true fi X y).2
          (scaledTruth fi (standardScaler fi X) (standardScaler fi (asColumn y)) beta c).1
          supports b := by
      refine ⟨g, hsub, hlen, fun b hb => ?_⟩
      obtain ⟨⟨S, hS, hbS⟩, hsep, k, hk, k', hk', hkk⟩ := hgood b hb
      have hiff : ∀ j, (scaledTruth fi (standardScaler fi X) (standardScaler fi (asColumn y)) beta c).1 j
          ≠ 0 ↔ beta j ≠ 0 := fun j => by
        have := hX j
        simp only [scaledTruth, ne_eq, div_eq_zero_iff, mul_eq_zero, hs, this, or_false]
      refine ⟨⟨S, hS, fun j hj => hbS j ((hiff j).mp hj)⟩, fun T hT => ?_, k, hk, k', hk', inj k k' hkk⟩
      have := determines_scaled hX rfl (hsep T hT)
      simp only [hiff]
      exact this
    unfold fitIC
    simp only
    rw [if_neg fun h => inj i i' hne (h i i'), estimateIC_good hm hols hy' hc' hg2]
    simp only [linIntercept_exact hn hy' hc']
    rw [linPost_scaledTruth hX hs beta c hc]

/-- Four rows, `x₀ = x₁ + x₂`. -/
def c132X : Fin 4 → Fin 3 → ℝ := ![![1, 1, 0], ![1, 0, 1], ![2, 1, 1], ![3, 2, 1]]

/-- `y = x₀`. -/
def c132y : Fin 4 → ℝ := ![1, 1, 2, 3]

theorem c132_0 (w : Fin 3 → ℝ) (c : ℝ) : affine w c (c132X 0) = w 0 * 1 + w 1 * 1 + w 2 * 0 + c := by
  unfold affine; rw [Fin.sum_univ_three]; rfl
theorem c132_1 (w : Fin 3 → ℝ) (c : ℝ) : affine w c (c132X 1) = w 0 * 1 + w 1 * 0 + w 2 * 1 + c := by
  unfold affine; rw [Fin.sum_univ_three]; rfl
theorem c132_2 (w : Fin 3 → ℝ) (c : ℝ) : affine w c (c132X 2) = w 0 * 2 + w 1 * 1 + w 2 * 1 + c := by
  unfold affine; rw [Fin.sum_univ_three]; rfl
theorem c132_3 (w : Fin 3 → ℝ) (c : ℝ) : affine w c (c132X 3) = w 0 * 3 + w 1 * 2 + w 2 * 1 + c := by
  unfold affine; rw [Fin.sum_univ_three]; rfl

theorem c132_rows {P : Fin 4 → Prop} (h0 : P 0) (h1 : P 1) (h2 : P 2) (h3 : P 3) (i : Fin 4) : P i := by
  fin_cases i
  · exact h0
  · exact h1
  · exact h2
  · exact h3

theorem c132_small (i : Fin 4) : c132y i = affine ![1, 0, 0] 0 (c132X i) := by
  have e0 : (![1, 0, 0] : Fin 3 → ℝ) 0 = 1 := rfl
  have e1 : (![1, 0, 0] : Fin 3 → ℝ) 1 = 0 := rfl
  have e2 : (![1, 0, 0] : Fin 3 → ℝ) 2 = 0 := rfl
  refine c132_rows (P := fun i => c132y i = affine ![1, 0, 0] 0 (c132X i)) ?_ ?_ ?_ ?_ i
  · simp only [c132_0, e0, e1, e2, show c132y 0 = 1 from rfl]; norm_num
  · simp only [c132_1, e0, e1, e2, show c132y 1 = 1 from rfl]; norm_num
  · simp only [c132_2, e0, e1, e2, show c132y 2 = 2 from rfl]; norm_num
  · simp only [c132_3, e0, e1, e2, show c132y 3 = 3 from rfl]; norm_num

theorem c132_large (i : Fin 4) : c132y i = affine ![0, 1, 1] 0 (c132X i) := by
  have e0 : (![0, 1, 1] : Fin 3 → ℝ) 0 = 0 := rfl
  have e1 : (![0, 1, 1] : Fin 3 → ℝ) 1 = 1 := rfl
  have e2 : (![0, 1, 1] : Fin 3 → ℝ) 2 = 1 := rfl
  refine c132_rows (P := fun i => c132y i = affine ![0, 1, 1] 0 (c132X i)) ?_ ?_ ?_ ?_ i
  · simp only [c132_0, e0, e1, e2, show c132y 0 = 1 from rfl]; norm_num
  · simp only [c132_1, e0, e1, e2, show c132y 1 = 1 from rfl]; norm_num
  · simp only [c132_2, e0, e1, e2, show c132y 2 = 2 from rfl]; norm_num
  · simp only [c132_3, e0, e1, e2, show c132y 3 = 3 from rfl]; norm_num

theorem c132_varies : c132y 0 ≠ c132y 2 := by
  rw [show c132y 0 = 1 from rfl, show c132y 2 = 2 from rfl]
  norm_num

/-- Recovery of `y = x₁ + x₂` where only candidates within these two features are at hand. -/
example (ols : Ols ℝ 4 3) (h : ∀ S ∈ [![false, true, false], ![false, true, true]],
    IsLeastSquares false c132X c132y [0, 1, 2] S (ols c132X c132y [0, 1, 2] S).coef
      (ols c132X c132y [0, 1, 2] S).intercept) :
    fitIC "BIC" ols false false [![false, true, false], ![false, true, true]] [[0, 1, 2]] c132X c132y =
      .ok (![0, 1, 1], 0) := by
  refine C132_recovery_partial (.inl rfl) (fun b hb S hS _ => ?_) c132_large (fun _ => rfl)
    ⟨[[0, 1, 2]], List.Sublist.refl _, by decide, fun b hb => ?_⟩
  · rw [List.mem_singleton.mp hb]
    exact h S hS
  · rw [List.mem_singleton.mp hb]
    refine ⟨⟨![false, true, true], by simp, fun j hj => ?_⟩, fun S hS d e hd he hz => ?_,
      0, by simp, 2, by simp, c132_varies⟩
    · fin_cases j
      · exact absurd rfl hj
      · rfl
      · rfl
    · have h0 : d 0 = 0 := hd 0 (by
        simp only [List.mem_cons, List.not_mem_nil, or_false] at hS
        rcases hS with rfl | rfl <;> simp)
      have he' := he rfl
      have h1 := hz 0 (by simp)
      have h2 := hz 1 (by simp)
      simp only [c132_0, c132_1, h0, he'] at h1 h2
      norm_num at h1 h2
      refine ⟨fun j => ?_, he'⟩
      fin_cases j
      · exact h0
      · exact h1
      · exact h2

/-- **C132** is false where candidates are exact: noise-free data `y = x₀ = x₁ + x₂` with the candidates
    `{1, 2}` and `{0}` (in the order in which `np.unique` lists them).  Both are exact on all rows; for each
    of the criteria, and whatever the least squares solver, `fit` returns the coefficients `(0, 1, 1)` of
    the one with two features instead of `(1, 0, 0)`. -/
theorem C132_negation {metric : String} (hm : Known metric) :
    (∀ i, c132y i = affine ![1, 0, 0] 0 (c132X i)) ∧
    Admissible false ![true, false, false] (![1, 0, 0] : Fin 3 → ℝ) 0 ∧
    ∀ ols : Ols ℝ 4 3, (∀ S ∈ [![false, true, true], ![true, false, false]],
        IsLeastSquares false c132X c132y [0, 1, 2] S (ols c132X c132y [0, 1, 2] S).coef
          (ols c132X c132y [0, 1, 2] S).intercept) →
      fitIC metric ols false false [![false, true, true], ![true, false, false]] [[0, 1, 2]] c132X c132y =
        .ok (![0, 1, 1], 0) := by
  refine ⟨c132_small, ⟨fun j hj => ?_, fun _ => rfl⟩, fun ols hols => ?_⟩
  · fin_cases j
    · cases hj
    · rfl
    · rfl
  obtain ⟨⟨hw, hb⟩, hmin⟩ := hols ![false, true, true] (by simp)
  have hadm : Admissible false ![false, true, true] (![0, 1, 1] : Fin 3 → ℝ) 0 := by
    refine ⟨fun j hj => ?_, fun _ => rfl⟩
    fin_cases j
    · rfl
    · cases hj
    · cases hj
  have hle := hmin ![0, 1, 1] 0 hadm
  have h0 : sse c132X c132y [0, 1, 2] ![0, 1, 1] 0 = 0 := by
    unfold sse
    simp [← c132_large]
  rw [h0] at hle
  have hz := sum_sq_eq_zero _ _ hle
  have w0 := hw 0 rfl
  have b0 := hb rfl
  have z0 := hz 0 (by simp)
  have z1 := hz 1 (by simp)
  rw [c132_0, w0, b0, show c132y 0 = 1 from rfl] at z0
  rw [c132_1, w0, b0, show c132y 1 = 1 from rfl] at z1
  have hcoef : (ols c132X c132y [0, 1, 2] ![false, true, true]).coef = ![0, 1, 1] := by
    funext j
    fin_cases j
    · exact w0
    · change (ols c132X c132y [0, 1, 2] ![false, true, true]).coef 1 = 1
      linarith
    · change (ols c132X c132y [0, 1, 2] ![false, true, true]).coef 2 = 1
      linarith
  have hcand : candidate ols c132X c132y [0, 1, 2] ![false, true, true] =
      ols c132X c132y [0, 1, 2] ![false, true, true] := by
    unfold candidate
    rw [if_pos ⟨1, rfl⟩]
  have hbest : bestEstimateIC metric ols c132X c132y [![false, true, true], ![true, false, false]]
      [0, 1, 2] = .ok ![0, 1, 1] := by
    have hex : ∀ r : Fin 3, c132y ([0, 1, 2].get r) =
        linPred (candidate ols c132X c132y [0, 1, 2] ![false, true, true]).coef
          (candidate ols c132X c132y [0, 1, 2] ![false, true, true]).intercept (c132X ([0, 1, 2].get r)) := by
      intro r
      rw [hcand, hcoef, b0]
      exact c132_large _
    obtain ⟨i, q, hi, -, -, hfirst⟩ := C132_exact hm (m := 3) (by decide)
      (y := fun r => c132y ([0, 1, 2].get r))
      (cands := [![false, true, true], ![true, false, false]].map fun S =>
        (fun r => linPred (candidate ols c132X c132y [0, 1, 2] S).coef
          (candidate ols c132X c132y [0, 1, 2] S).intercept (c132X ([0, 1, 2].get r)), numFeatures S))
      ⟨_, List.mem_cons_self .., hex⟩
    have hi0 : i = 0 := by
      by_contra hne
      obtain ⟨r, hr⟩ := hfirst 0 (Nat.pos_of_ne_zero hne) _ rfl
      exact hr (hex r)
    subst hi0
    unfold bestEstimateIC
    split
    · rename_i e he
      exact absurd (hi.symm.trans he) (by simp)
    rename_i i he
    obtain rfl : 0 = i := Except.ok.inj (hi.symm.trans he)
    simp only [List.getElem?_cons_zero, hcand, hcoef]
  have hest : estimateIC metric ols [![false, true, true], ![true, false, false]] [[0, 1, 2]] c132X c132y =
      .ok ![0, 1, 1] := by
    unfold estimateIC
    rw [mapE_total (fun _ => ![0, 1, 1]) (by
      intro b hb
      rw [List.mem_singleton.mp hb]
      exact hbest)]
    refine congrArg Except.ok (funext fun j => median_majority _ _ _ ?_)
    simp
  unfold fitIC
  have hp : linPre false false c132X c132y = (c132X, c132y) := rfl
  simp only [hp]
  rw [if_neg (fun h => c132_varies (h 0 2)), hest]
  rfl

end Verif.Props
