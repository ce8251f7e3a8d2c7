import Mathlib.Tactic.FinCases
import Verif.Lemmas.Recovery
/-!
Noise-free data: when a UoI linear regressor returns the true model.
-/
namespace Verif.Props
open Verif.Py Verif.HeldOut Verif.Scaling Verif.Recovery Verif.Spec.Recovery Verif.Spec.HeldOut

variable {n p : Nat}

/-- **C129**, under conditions: the response is an affine function of the features (linear without an
    intercept), and for more than half of the estimation bootstraps some candidate support holds all
    features of the truth and is determined on the training rows, the response varies on the test rows, and
    the test rows tell every candidate apart from the truth.  Then `fit` with the score `'r2'` returns
    exactly the true coefficients and intercept, standardized or not.  The conditions are on the data as
    passed to `fit`.  Missing: the last condition, without which the claim is false
    (`C129_heldout_negation`). -/
theorem C129_exact_partial {ols : Ols ℝ n p} {std fi : Bool} {X : Fin n → Fin p → ℝ} {y : Fin n → ℝ}
    {beta : Fin p → ℝ} {c : ℝ} {supports : List (Fin p → Bool)} {boots : List (Boot n)}
    (hols : ∀ b ∈ boots, ∀ S ∈ supports, (∃ j, S j = true) →
      IsLeastSquares fi (linPre std fi X y).1 (linPre std fi X y).2 b.train S
        (ols (linPre std fi X y).1 (linPre std fi X y).2 b.train S).coef
        (ols (linPre std fi X y).1 (linPre std fi X y).2 b.train S).intercept)
    (hy : ∀ i, y i = affine beta c (X i)) (hc : fi = false → c = 0)
    (hg : ∃ g : List (Boot n), g.Sublist boots ∧ boots.length < 2 * g.length ∧
      ∀ b ∈ g, Good fi X y beta supports b.train b.test) :
    fit ols std fi supports boots X y = .ok (beta, c) := by
  have hg' := hg
  obtain ⟨g, hsub, hlen, hgood⟩ := hg
  obtain ⟨b, hb⟩ : ∃ b, b ∈ g := by
    cases g with
    | nil => simp at hlen
    | cons b g => exact ⟨b, List.mem_cons_self ..⟩
  obtain ⟨i, -, i', -, hne⟩ := (hgood b hb).varies
  have hn : n ≠ 0 := fun h => by subst h; exact i.elim0
  cases std with
  | false =>
    have hp : linPre false fi X y = (X, y) := rfl
    unfold fit
    rw [hp] at hols
    simp only [hp]
    rw [if_neg fun h => hne (h i i'), estimate_good hols hy hc hg']
    simp only [linIntercept_exact hn hy hc]
    rfl
  | true =>
    have hX : ∀ j, (standardScaler fi X).scale j ≠ 0 := standardScaler_scale_ne fi X
    have hs : (standardScaler fi (asColumn y)).scale 0 ≠ 0 := standardScaler_scale_ne fi _ 0
    have hy' : ∀ k, (linPre true fi X y).2 k =
        affine (scaledTruth fi (standardScaler fi X) (standardScaler fi (asColumn y)) beta c).1
          (scaledTruth fi (standardScaler fi X) (standardScaler fi (asColumn y)) beta c).2
          ((linPre true fi X y).1 k) := by
      intro k
      have := scaledTruth_spec hX hs (by rfl) (by rfl) beta c hc (X k)
      rw [← hy k] at this
      exact this
    have hc' : fi = false → (scaledTruth fi (standardScaler fi X) (standardScaler fi (asColumn y))
        beta c).2 = 0 := fun h => by subst h; rfl
    have inj : ∀ k k', y k ≠ y k' → (linPre true fi X y).2 k ≠ (linPre true fi X y).2 k' := by
      intro k k' hkk h
      exact hkk (scaler_apply_inj _ hs h)
    have hg2 : ∃ g : List (Boot n), g.Sublist boots ∧ boots.length < 2 * g.length ∧
        ∀ b ∈ g, Good fi (linPre true fi X y).1 (linPre true fi X y).2
          (scaledTruth fi (standardScaler fi X) (standardScaler fi (asColumn y)) beta c).1
          supports b.train b.test := by
      refine ⟨g, hsub, hlen, fun b hb => ?_⟩
      obtain ⟨⟨S, hS, hbS, hdet⟩, hsep, k, hk, k', hk', hkk⟩ := hgood b hb
      have hiff : ∀ j, (scaledTruth fi (standardScaler fi X) (standardScaler fi (asColumn y)) beta c).1 j
          ≠ 0 ↔ beta j ≠ 0 := fun j => by
        have := hX j
        simp only [scaledTruth, ne_eq, div_eq_zero_iff, mul_eq_zero, hs, this, or_false]
      refine ⟨⟨S, hS, fun j hj => hbS j ((hiff j).mp hj), determines_scaled hX rfl hdet⟩, fun T hT => ?_,
        k, hk, k', hk', inj k k' hkk⟩
      have := determines_scaled hX rfl (hsep T hT)
      simp only [hiff]
      exact this
    unfold fit
    simp only
    rw [if_neg fun h => inj i i' hne (h i i'), estimate_good hols hy' hc' hg2]
    simp only [linIntercept_exact hn hy' hc']
    rw [linPost_scaledTruth hX hs beta c hc]

/-- Six rows, `y = x₀ + x₁`. -/
def c129X : Fin 6 → Fin 2 → ℝ := ![![1, 1], ![1, -1], ![1, 2], ![2, 1], ![1, 0], ![2, 0]]

/-- The responses. -/
def c129y : Fin 6 → ℝ := ![2, 0, 3, 3, 1, 2]

/-- Least squares on the first two rows. -/
def c129ols : Ols ℝ 6 2 := fun _ _ _ S => if S 1 then ⟨![1, 1], 0⟩ else ⟨![1, 0], 0⟩

theorem c129X_0 : c129X 0 = ![1, 1] := rfl
theorem c129X_1 : c129X 1 = ![1, -1] := rfl
theorem c129X_2 : c129X 2 = ![1, 2] := rfl
theorem c129X_3 : c129X 3 = ![2, 1] := rfl
theorem c129X_4 : c129X 4 = ![1, 0] := rfl
theorem c129X_5 : c129X 5 = ![2, 0] := rfl
theorem c129y_0 : c129y 0 = 2 := rfl
theorem c129y_1 : c129y 1 = 0 := rfl
theorem c129y_2 : c129y 2 = 3 := rfl
theorem c129y_3 : c129y 3 = 3 := rfl
theorem c129y_4 : c129y 4 = 1 := rfl
theorem c129y_5 : c129y 5 = 2 := rfl

theorem c129_truth (i : Fin 6) : c129y i = affine ![1, 1] 0 (c129X i) := by
  fin_cases i <;> norm_num [c129y, c129X, affine, Fin.sum_univ_two]

theorem c129_ols (S : Fin 2 → Bool) (hS : S = ![true, false] ∨ S = ![true, true]) :
    IsLeastSquares false c129X c129y [0, 1] S (c129ols c129X c129y [0, 1] S).coef
      (c129ols c129X c129y [0, 1] S).intercept := by
  rcases hS with rfl | rfl
  · refine ⟨⟨fun j hj => ?_, fun _ => rfl⟩, fun w c ⟨hw, hc⟩ => ?_⟩
    · fin_cases j
      · cases hj
      · rfl
    · have h1 : w 1 = 0 := hw 1 rfl
      have h2 : c = 0 := hc rfl
      simp only [sse, affine, Fin.sum_univ_two, h1, h2, c129ols, c129X, c129y]
      norm_num
      nlinarith [sq_nonneg (w 0 - 1)]
  · refine ⟨⟨fun j hj => ?_, fun _ => rfl⟩, fun w c _ => ?_⟩
    · fin_cases j <;> cases hj
    · have e : sse c129X c129y [0, 1] ![1, 1] 0 = 0 := by
        simp only [sse, ← c129_truth]
        norm_num
      have : (c129ols c129X c129y [0, 1] ![true, true]) = ⟨![1, 1], 0⟩ := rfl
      rw [this, e]
      refine List.sum_nonneg fun x hx => ?_
      obtain ⟨i, -, rfl⟩ := List.mem_map.mp hx
      exact sq_nonneg _

theorem c129_det (a b : Fin 6) (hab : c129X a 0 * c129X b 1 - c129X a 1 * c129X b 0 ≠ 0)
    (T : Fin 2 → Prop) : Determines false c129X [a, b] T := by
  intro d e _ he hz
  have he' := he rfl
  have h1 := hz a (by simp)
  have h2 := hz b (by simp)
  simp only [affine, Fin.sum_univ_two, he', add_zero] at h1 h2
  have k0 : d 0 = 0 := by
    have : d 0 * (c129X a 0 * c129X b 1 - c129X a 1 * c129X b 0) = 0 := by
      linear_combination c129X b 1 * h1 - c129X a 1 * h2
    exact (mul_eq_zero.mp this).resolve_right hab
  have k1 : d 1 = 0 := by
    have : d 1 * (c129X a 0 * c129X b 1 - c129X a 1 * c129X b 0) = 0 := by
      linear_combination c129X a 0 * h2 - c129X b 0 * h1
    exact (mul_eq_zero.mp this).resolve_right hab
  refine ⟨fun j => ?_, he'⟩
  fin_cases j
  · exact k0
  · exact k1

/-- Three bootstraps with two candidates each; in the third the test rows do not tell the smaller candidate
    from the truth, and it is chosen there, but the median is exact. -/
example : fit c129ols false false [![true, false], ![true, true]]
    [⟨[0, 1], [4, 5]⟩, ⟨[0, 1], [2, 4]⟩, ⟨[0, 1], [4, 2]⟩] c129X c129y = .ok (![1, 1], 0) := by
  refine C129_exact_partial ?_ c129_truth (fun _ => rfl)
    ⟨[⟨[0, 1], [2, 4]⟩, ⟨[0, 1], [4, 2]⟩], List.sublist_cons_self .., by decide, ?_⟩
  · intro b hb S hS _
    have : b.train = [0, 1] := by
      simp only [List.mem_cons, List.not_mem_nil, or_false] at hb
      rcases hb with rfl | rfl | rfl <;> rfl
    rw [this]
    exact c129_ols S (by simpa using hS)
  · have hgood : ∀ a b : Fin 6, c129X a 0 * c129X b 1 - c129X a 1 * c129X b 0 ≠ 0 → c129y a ≠ c129y b →
        Good false c129X c129y ![1, 1] [![true, false], ![true, true]] [0, 1] [a, b] := fun a b h h' =>
      ⟨⟨![true, true], by simp, fun j _ => by fin_cases j <;> rfl,
        c129_det 0 1 (by norm_num [c129X_0, c129X_1, c129X_2, c129X_3, c129X_4, c129X_5]) _⟩, fun S _ => c129_det a b h _,
        a, by simp, b, by simp, h'⟩
    intro b hb
    simp only [List.mem_cons, List.not_mem_nil, or_false] at hb
    rcases hb with rfl | rfl
    · exact hgood 2 4 (by norm_num [c129X_0, c129X_1, c129X_2, c129X_3, c129X_4, c129X_5]) (by norm_num [c129y_0, c129y_1, c129y_2, c129y_3, c129y_4, c129y_5])
    · exact hgood 4 2 (by norm_num [c129X_0, c129X_1, c129X_2, c129X_3, c129X_4, c129X_5]) (by norm_num [c129y_0, c129y_1, c129y_2, c129y_3, c129y_4, c129y_5])

/-- **C129** is false when the test rows cannot tell a smaller candidate from the truth: noise-free data,
    a complete candidate that is determined on the training rows, a response that varies on the test rows;
    and whatever the least squares solver, `fit` returns coefficients `(1, 0)` for the truth `(1, 1)`, since
    the smaller candidate comes first.  On a training row the prediction is 1 instead of 2. -/
theorem C129_heldout_negation :
    (∀ i, c129y i = affine ![1, 1] 0 (c129X i)) ∧
    (∃ S ∈ [![true, false], ![true, true]], (∀ j, (![1, 1] : Fin 2 → ℝ) j ≠ 0 → S j = true) ∧
      Determines false c129X [0, 1] (fun j => S j = true)) ∧
    c129y 4 ≠ c129y 5 ∧
    (∀ ols : Ols ℝ 6 2, (∀ S ∈ [![true, false], ![true, true]], IsLeastSquares false c129X c129y [0, 1] S
        (ols c129X c129y [0, 1] S).coef (ols c129X c129y [0, 1] S).intercept) →
      fit ols false false [![true, false], ![true, true]] [⟨[0, 1], [4, 5]⟩] c129X c129y =
        .ok (![1, 0], 0)) ∧
    affine ![1, 0] 0 (c129X 0) = 1 ∧ c129y 0 = 2 := by
  refine ⟨c129_truth, ⟨![true, true], by simp, fun j _ => by fin_cases j <;> rfl,
    c129_det 0 1 (by norm_num [c129X_0, c129X_1, c129X_2, c129X_3, c129X_4, c129X_5]) _⟩, by norm_num [c129y_0, c129y_1, c129y_2, c129y_3, c129y_4, c129y_5], fun ols hols => ?_,
    by norm_num [affine, c129X_0, Fin.sum_univ_two], by norm_num [c129y_0, c129y_1, c129y_2, c129y_3, c129y_4, c129y_5]⟩
  have hv : Varies ([4, 5].map c129y) := ⟨1, by simp [c129y_0, c129y_1, c129y_2, c129y_3, c129y_4, c129y_5], 2, by simp [c129y_0, c129y_1, c129y_2, c129y_3, c129y_4, c129y_5], by norm_num⟩
  -- the smaller candidate
  obtain ⟨⟨hw, hb⟩, hmin⟩ := hols ![true, false] (by simp)
  have h1 := hw 1 rfl
  have h2 := hb rfl
  have h0 : (ols c129X c129y [0, 1] ![true, false]).coef 0 = 1 := by
    have hadm : Admissible false ![true, false] (![1, 0] : Fin 2 → ℝ) 0 := by
      refine ⟨fun j hj => ?_, fun _ => rfl⟩
      fin_cases j
      · cases hj
      · rfl
    have := hmin ![1, 0] 0 hadm
    simp only [sse, affine, Fin.sum_univ_two, h1, h2, c129X_0, c129X_1, c129X_2, c129X_3, c129X_4, c129X_5,
      c129y_0, c129y_1, c129y_2, c129y_3, c129y_4, c129y_5] at this
    norm_num [c129X_0, c129X_1, c129y_0, c129y_1] at this
    nlinarith [sq_nonneg ((ols c129X c129y [0, 1] ![true, false]).coef 0 - 1)]
  have hcoef : (ols c129X c129y [0, 1] ![true, false]).coef = ![1, 0] := by
    funext j
    fin_cases j
    · exact h0
    · exact h1
  have hz : sse c129X c129y [4, 5] (ols c129X c129y [0, 1] ![true, false]).coef
      (ols c129X c129y [0, 1] ![true, false]).intercept = 0 := by
    rw [hcoef, h2]
    norm_num [sse, affine, Fin.sum_univ_two, c129X_0, c129X_1, c129X_2, c129X_3, c129X_4, c129X_5,
      c129y_0, c129y_1, c129y_2, c129y_3, c129y_4, c129y_5]
  have hcand : candidate ols c129X c129y [0, 1] ![true, false] = ols c129X c129y [0, 1] ![true, false] := by
    unfold candidate
    rw [if_pos ⟨0, rfl⟩]
  have hbest : bestEstimate ols c129X c129y [![true, false], ![true, true]] ⟨[0, 1], [4, 5]⟩ =
      .ok ![1, 0] := by
    obtain ⟨i, hi, q, hq, -, hfirst⟩ := C125_best_partial hv (ps := ([![true, false], ![true, true]].map
      (candidate ols c129X c129y [0, 1])).map (predictions c129X [4, 5])) (by
        intro q hq
        obtain ⟨f, -, rfl⟩ := List.mem_map.mp hq
        simp [predictions]) (by simp)
    have hi0 : i = 0 := by
      by_contra hne
      have := hfirst 0 (Nat.pos_of_ne_zero hne) _ rfl
      rw [sqError_pred, hcand, hz] at this
      exact absurd this (not_lt.mpr (sqError_nonneg _ _))
    unfold bestEstimate
    simp only
    rw [hi, hi0]
    simp only [List.map_cons, List.getElem?_cons_zero, hcand, hcoef]
  have hest : estimate ols [![true, false], ![true, true]] [⟨[0, 1], [4, 5]⟩] c129X c129y =
      .ok ![1, 0] := by
    unfold estimate
    rw [mapE_total (fun _ => ![1, 0]) (by
      intro b hb
      rw [List.mem_singleton.mp hb]
      exact hbest)]
    refine congrArg Except.ok (funext fun j => median_majority _ _ _ ?_)
    simp
  unfold fit
  have hp : linPre false false c129X c129y = (c129X, c129y) := rfl
  simp only [hp]
  rw [if_neg (fun h => by have := h 4 5; norm_num [c129y_0, c129y_1, c129y_2, c129y_3, c129y_4, c129y_5] at this), hest]
  rfl

/-- Each estimation bootstrap whose test responses vary takes the coefficients of a candidate with the smallest
    squared error on the test rows.  The candidate without features takes part with the mean training response
    as its prediction, whether or not an intercept is to be fitted. -/
theorem C129_best [LinearOrder K] [Field K] [IsStrictOrderedRing K] {ols : Ols K n p} {fi : Bool}
    {X : Fin n → Fin p → K} {y : Fin n → K} {supports : List (Fin p → Bool)} (h0 : supports ≠ []) {b : Boot n}
    (hols : ∀ S ∈ supports, (∃ j, S j = true) → IsLeastSquares fi X y b.train S
      (ols X y b.train S).coef (ols X y b.train S).intercept)
    (ht : b.train ≠ []) (hv : ∃ i ∈ b.test, ∃ i' ∈ b.test, y i ≠ y i') :
    ∃ S ∈ supports, ∃ w c, bestEstimate ols X y supports b = .ok w ∧ IsFit fi X y b.train S w c ∧
      ∀ S' ∈ supports, ∃ w' c', IsFit fi X y b.train S' w' c' ∧
        sse X y b.test w c ≤ sse X y b.test w' c' := by
  have hfit : ∀ S ∈ supports, IsFit fi X y b.train S (candidate ols X y b.train S).coef
      (candidate ols X y b.train S).intercept := by
    intro S hS
    unfold candidate
    constructor
    · intro hj
      rw [if_pos hj]
      exact hols S hS hj
    · intro hj
      rw [if_neg (fun ⟨j, h⟩ => by rw [hj j] at h; cases h)]
      have : (b.train.length : K) ≠ 0 := by
        exact_mod_cast (List.length_pos_of_ne_nil ht).ne'
      exact ⟨fun _ => rfl, by field_simp⟩
  have hv' : Varies (b.test.map y) := by
    obtain ⟨i, hi, i', hi', hne⟩ := hv
    exact ⟨y i, List.mem_map.mpr ⟨i, hi, rfl⟩, y i', List.mem_map.mpr ⟨i', hi', rfl⟩, hne⟩
  have hlen : ∀ q ∈ (supports.map (candidate ols X y b.train)).map (predictions X b.test),
      q.length = (b.test.map y).length := by
    intro q hq
    obtain ⟨f, -, rfl⟩ := List.mem_map.mp hq
    simp [predictions]
  have hne : (supports.map (candidate ols X y b.train)).map (predictions X b.test) ≠ [] := by
    simpa using h0
  obtain ⟨i, hi, q, hq, hbest, -⟩ := Verif.Props.C125_best_partial hv' hlen hne
  rw [List.getElem?_map, List.getElem?_map] at hq
  cases hT : supports[i]? with
  | none => rw [hT] at hq; cases hq
  | some T =>
    rw [hT] at hq
    simp only [Option.map_some, Option.some.injEq] at hq
    have hTm : T ∈ supports := List.mem_iff_getElem?.mpr ⟨i, hT⟩
    refine ⟨T, hTm, _, _, ?_, hfit T hTm, fun S hS => ⟨_, _, hfit S hS, ?_⟩⟩
    · unfold bestEstimate
      simp only
      rw [hi]
      simp only [List.getElem?_map, hT, Option.map_some]
    · have hle := hbest (predictions X b.test (candidate ols X y b.train S))
        (List.mem_map.mpr ⟨_, List.mem_map.mpr ⟨S, hS, rfl⟩, rfl⟩)
      rwa [← hq, sqError_pred, sqError_pred] at hle

/-- The candidate without features against the first feature, training rows 0 and 1, test rows 2 and 4: the mean
    training response is 1, the least squares fit on the first feature predicts 1 as well, so either is best. -/
example (ols : Ols ℝ 6 2) (h : IsLeastSquares false c129X c129y [0, 1] ![true, false]
      (ols c129X c129y [0, 1] ![true, false]).coef (ols c129X c129y [0, 1] ![true, false]).intercept) :
    ∃ w c, bestEstimate ols c129X c129y [![false, false], ![true, false]] ⟨[0, 1], [2, 4]⟩ = .ok w ∧
      sse c129X c129y [2, 4] w c ≤ 4 := by
  obtain ⟨S, -, w, c, h1, -, h3⟩ := C129_best (fi := false) (b := ⟨[0, 1], [2, 4]⟩)
    (supports := [![false, false], ![true, false]]) (ols := ols) (X := c129X) (y := c129y) (by simp) (fun S hS hj => by
      rcases List.mem_cons.1 hS with rfl | hS
      · obtain ⟨j, hj⟩ := hj
        fin_cases j <;> cases hj
      · rw [List.mem_singleton.1 hS]; exact h) (by simp) ⟨2, by simp, 4, by simp, by norm_num [c129y_2, c129y_4]⟩
  obtain ⟨w', c', hf, hle⟩ := h3 ![false, false] (by simp)
  obtain ⟨hw, hc⟩ := hf.2 (fun j => by fin_cases j <;> rfl)
  refine ⟨w, c, h1, hle.trans ?_⟩
  have e : c' = 1 := by
    simp [c129y_0, c129y_1] at hc
    linarith
  simp only [sse, affine, Fin.sum_univ_two, hw, e, List.map_cons, List.map_nil, List.sum_cons, List.sum_nil, c129y_2, c129y_4]
  norm_num

/-- A feature in no candidate support gets coefficient zero, so a truth that uses it is not recovered. -/
theorem C129_missing {ols : Ols ℝ n p} {std fi : Bool} {X : Fin n → Fin p → ℝ} {y : Fin n → ℝ}
    {supports : List (Fin p → Bool)} {boots : List (Boot n)} (hb : boots ≠ [])
    (hols : ∀ b ∈ boots, ∀ S ∈ supports, (∃ j, S j = true) →
      IsLeastSquares fi (linPre std fi X y).1 (linPre std fi X y).2 b.train S
        (ols (linPre std fi X y).1 (linPre std fi X y).2 b.train S).coef
        (ols (linPre std fi X y).1 (linPre std fi X y).2 b.train S).intercept)
    {j : Fin p} (hj : ∀ S ∈ supports, S j = false) {w : Fin p → ℝ} {c : ℝ}
    (h : fit ols std fi supports boots X y = .ok (w, c)) : w j = 0 := by
  have post : ∀ (v : Fin p → ℝ) (e : ℝ), v j = 0 → (linPost std fi (standardScaler fi X)
      (standardScaler fi (asColumn y)) v e).1 j = 0 := by
    intro v e hv
    unfold linPost
    cases std <;> simp [hv]
  unfold fit at h
  simp only at h
  split_ifs at h with hconst
  · simp only [Except.ok.injEq] at h
    rw [← show _ = w from congrArg Prod.fst h]
    exact post _ _ rfl
  · cases he : estimate ols supports boots (linPre std fi X y).1 (linPre std fi X y).2 with
    | error e => rw [he] at h; cases h
    | ok v =>
      rw [he] at h
      simp only [Except.ok.injEq] at h
      rw [← show _ = w from congrArg Prod.fst h]
      refine post _ _ ?_
      unfold estimate at he
      cases hm : mapE (bestEstimate ols (linPre std fi X y).1 (linPre std fi X y).2 supports) boots with
      | error e => rw [hm] at he; cases he
      | ok rows =>
        rw [hm] at he
        simp only [Except.ok.injEq] at he
        rw [← he]
        have hall := mapE_ok_iff.mp hm
        have hz : ∀ r ∈ rows, r j = 0 := by
          intro r hr
          obtain ⟨b, hbm, hbr⟩ := forall₂_mem hall hr
          obtain ⟨S, hS, e⟩ : ∃ S ∈ supports, r = (candidate ols (linPre std fi X y).1
              (linPre std fi X y).2 b.train S).coef := by
            by_cases hs : supports = []
            · subst hs
              cases hbr
            · obtain ⟨S, hS, e⟩ := bestEstimate_ok ols (linPre std fi X y).1 (linPre std fi X y).2 hs b
              rw [e] at hbr
              exact ⟨S, hS, (Except.ok.inj hbr).symm⟩
          rw [e]
          unfold candidate
          split_ifs with hne
          · exact (hols b hbm S hS hne).1.1 j (hj S hS)
          · rfl
        refine median_majority _ _ _ ?_
        have er : rows.map (fun r => r j) = List.replicate rows.length 0 := by
          rw [List.eq_replicate_iff]
          refine ⟨List.length_map .., fun x hx => ?_⟩
          obtain ⟨r, hr, rfl⟩ := List.mem_map.mp hx
          exact hz r hr
        rw [er, List.count_replicate_self, List.length_replicate]
        have := hall.length_eq
        have := List.length_pos_of_ne_nil hb
        omega

/-- The third feature is in no candidate. -/
example (ols : Ols ℝ 3 3) (h : ∀ S ∈ [![true, false, false]], IsLeastSquares false
    ![![1, 1, 1], ![1, -1, 0], ![0, 1, 2]] ![3, 0, 3] [0, 1] S
    (ols ![![1, 1, 1], ![1, -1, 0], ![0, 1, 2]] ![3, 0, 3] [0, 1] S).coef
    (ols ![![1, 1, 1], ![1, -1, 0], ![0, 1, 2]] ![3, 0, 3] [0, 1] S).intercept) {w : Fin 3 → ℝ} {c : ℝ}
    (hf : fit ols false false [![true, false, false]] [⟨[0, 1], [1, 2]⟩]
      ![![1, 1, 1], ![1, -1, 0], ![0, 1, 2]] ![3, 0, 3] = .ok (w, c)) : w 2 = 0 :=
  C129_missing (by simp) (fun b hb S hS _ => by
    rw [List.mem_singleton.mp hb]
    exact h S hS) (fun S hS => by rw [List.mem_singleton.mp hS]; rfl) hf

end Verif.Props
