import Mathlib.Algebra.BigOperators.Field
import Mathlib.LinearAlgebra.Span.Basic
import Verif.Lemmas.LogisticMin
import Verif.Model.Identify
import Verif.Spec.Identify
/-!
Lemmas: solutions of the fits of a classifier, and the directions its optimiser moves in.
-/
namespace Verif.Lemmas.Identify
open Verif.Logistic Verif.Spec.LogisticMin Verif.Spec.Identify

variable {n p k : Nat}

theorem bin_margin_unique {fi : Bool} {S : Fin p → Bool} {X : Fin n → Fin p → ℝ} {y : Fin n → ℝ}
    {u v : (Fin p → ℝ) × ℝ}
    (hu : ∀ x, binTarget none fi S X y u ≤ binTarget none fi S X y x)
    (hv : ∀ x, binTarget none fi S X y v ≤ binTarget none fi S X y x) :
    binMargin fi S X y u = binMargin fi S X y v := by
  simp only [binTarget_eq, invC, mul_zero, zero_mul] at hu hv
  exact (unique_mid (binMargin fi S X y) lossB (fun _ _ => 0) (fun _ => 0)
    (fun u v h => by rw [map_add, map_smul, map_smul]; exact lossB_mid_lt h)
    (fun u v => by norm_num) (fun u v => le_refl _) hu hv).1

theorem multi_margin_unique {fi : Bool} {S : Fin k → Fin p → Bool} {X : Fin n → Fin p → ℝ}
    {y : Fin n → Fin k} {C : Option ℝ} (hC : ∀ r, C = some r → 0 < r)
    {u v : (Fin k → Fin p → ℝ) × (Fin k → ℝ)}
    (hu : ∀ x, multiTarget C fi S X y u ≤ multiTarget C fi S X y x)
    (hv : ∀ x, multiTarget C fi S X y v ≤ multiTarget C fi S X y x) :
    multiMargin fi S X y u = multiMargin fi S X y v := by
  have hinv : 0 ≤ invC C := by
    cases C with
    | none => exact le_refl _
    | some r => exact (one_div_pos.mpr (hC r rfl)).le
  simp only [multiTarget_eq] at hu hv
  exact (unique_mid (multiMargin fi S X y) lossM
    (fun u v => 1 / 8 * invC C * ∑ j, (maskedLM S u j - maskedLM S v j) * (maskedLM S u j - maskedLM S v j))
    (fun v => 1 / 2 * invC C * ∑ j, maskedLM S v j * maskedLM S v j)
    (fun u v h => by
      rw [map_add, map_smul, map_smul]
      exact lossM_mid_lt (margin_self fi S X y u) (margin_self fi S X y v) h)
    (fun u v => (quad_mid (maskedLM S) (invC C) u v).le)
    (fun u v => mul_nonneg (by linarith) (Finset.sum_nonneg fun j _ => mul_self_nonneg _)) hu hv).1

theorem score_sub (d d' : Fin p → ℝ) (e e' : ℝ) (x : Fin p → ℝ) :
    score (d - d') (e - e') x = score d e x - score d' e' x := by
  simp only [score, Pi.sub_apply, sub_mul, Finset.sum_sub_distrib]
  ring

theorem within_sub {fi : Bool} {S : Fin p → Bool} {d d' : Fin p → ℝ} {e e' : ℝ} (h : Within fi S d e)
    (h' : Within fi S d' e') : Within fi S (d - d') (e - e') :=
  ⟨fun j hj => by simp [h.1 j hj, h'.1 j hj], fun hf => by simp [h.2 hf, h'.2 hf]⟩

theorem within_mono {fi : Bool} {S U : Fin p → Bool} {d : Fin p → ℝ} {e : ℝ} (h : Within fi S d e)
    (hs : ∀ j, S j = true → U j = true) : Within fi U d e :=
  ⟨fun j hj => h.1 j (by
    cases hS : S j with
    | false => rfl
    | true => exact absurd (hs j hS) (by simp [hj])), h.2⟩

/-- Adding the same to all classes leaves the margins. -/
theorem margin_shift (fi : Bool) (S : Fin k → Fin p → Bool) (X : Fin n → Fin p → ℝ) (y : Fin n → Fin k)
    (t : Fin p → ℝ) (s : ℝ) (ht : ∀ j, t j ≠ 0 → ∀ c, S c j = true) :
    multiMargin fi S X y (fun _ => t, fun _ => s) = 0 := by
  have hm : ∀ c, maskedW (S c) t = t := fun c => by
    funext j
    unfold maskedW
    split_ifs with h
    · rfl
    · by_contra hne
      exact h (ht j (Ne.symm hne) c)
  funext q
  rw [show q = (q.1, q.2) from rfl, multiMargin_score]
  simp [hm]

/-- The differences of two solutions are the same for all classes. -/
theorem diff_same {fi : Bool} {S : Fin k → Fin p → Bool} {X : Fin n → Fin p → ℝ} {y : Fin n → Fin k}
    {U : Fin p → Bool} (hU : ∀ c j, S c j = true → U j = true) (hX : Independent fi U X)
    {u v : (Fin k → Fin p → ℝ) × (Fin k → ℝ)} (h : multiMargin fi S X y u = multiMargin fi S X y v)
    (c c' : Fin k) :
    maskedW (S c) (u.1 c) - maskedW (S c) (v.1 c) = maskedW (S c') (u.1 c') - maskedW (S c') (v.1 c') ∧
    (if fi then u.2 c else 0) - (if fi then v.2 c else 0) =
      (if fi then u.2 c' else 0) - (if fi then v.2 c' else 0) := by
  have hw : ∀ (v : (Fin k → Fin p → ℝ) × (Fin k → ℝ)) c,
      Within fi U (maskedW (S c) (v.1 c)) (if fi then v.2 c else 0) := fun v c =>
    within_mono (within_masked fi (S c) (v.1 c, v.2 c)) (hU c)
  obtain ⟨h1, h2⟩ := hX _ _ (within_sub (within_sub (hw u c) (hw v c)) (within_sub (hw u c') (hw v c')))
    (fun i => by
      have a := congrFun h (i, c)
      have b := congrFun h (i, c')
      rw [multiMargin_score, multiMargin_score] at a b
      rw [score_sub, score_sub, score_sub]
      linarith)
  exact ⟨sub_eq_zero.mp h1, sub_eq_zero.mp h2⟩

/-- The gradients of the classes cancel. -/
theorem grad_sum [NeZero k] (X : Fin n → Fin p → ℝ) (y : Fin n → Fin k) (alpha : ℝ) (sw : Fin n → ℝ)
    (w : Fin k → Fin p → ℝ) (b : Option (Fin k → ℝ)) :
    (∀ j, ∑ c, (multiLossGrad X (oneHot y) alpha none sw w b).2.1 c j = alpha * ∑ c, w c j) ∧
    ∀ g, (multiLossGrad X (oneHot y) alpha none sw w b).2.2 = some g → ∑ c, g c = 0 := by
  have hlp : ∀ eta : Fin k → ℝ, ∑ c, Real.exp (logProb eta c) = 1 := by
    intro eta
    have hp : 0 < ∑ c', Real.exp (eta c') := Finset.sum_pos (fun c _ => Real.exp_pos _) Finset.univ_nonempty
    simp only [logProb, Real.exp_sub, Real.exp_log hp, ← Finset.sum_div]
    exact div_self hp.ne'
  have hone : ∀ i, ∑ c, oneHot y i c = (1 : ℝ) := fun i => by simp [oneHot]
  have hd : ∀ (eta : Fin k → ℝ) i,
      ∑ c, sw i * (Real.exp (logProb eta c) - oneHot y i c) = 0 := fun eta i => by
    rw [← Finset.mul_sum, Finset.sum_sub_distrib, hlp, hone, sub_self, mul_zero]
  constructor
  · intro j
    simp only [multiLossGrad, applyMaskM]
    rw [Finset.sum_add_distrib, ← Finset.sum_div, Finset.sum_comm, ← Finset.mul_sum]
    simp only [← Finset.sum_mul, hd, zero_mul, Finset.sum_const_zero, zero_div, zero_add]
  · intro g hg
    cases b with
    | none => simp [multiLossGrad] at hg
    | some b =>
      simp only [multiLossGrad, applyMaskM, Option.map_some, Option.some.injEq] at hg
      subst hg
      rw [← Finset.sum_div, Finset.sum_comm]
      simp only [hd, Finset.sum_const_zero, zero_div]

/-- Without penalty, moving along gradients keeps the sums over the classes. -/
theorem span_sum [NeZero k] {fi : Bool} {S : Fin k → Fin p → Bool} {X : Fin n → Fin p → ℝ}
    {y : Fin n → Fin k} {d : (Fin k → Fin p → ℝ) × (Fin k → ℝ)}
    (h : d ∈ Submodule.span ℝ (Set.range (multiTargetGrad none fi S X y))) :
    (∀ j, (∀ c, S c j = true) → ∑ c, d.1 c j = 0) ∧ ∑ c, d.2 c = 0 := by
  induction h using Submodule.span_induction with
  | mem x hx =>
    obtain ⟨v, rfl⟩ := hx
    obtain ⟨h1, h2⟩ := grad_sum X y (invC none) (fun _ => 1) (fun c => maskedW (S c) (v.1 c))
      (interceptArg fi v.2)
    constructor
    · intro j hj
      simp only [multiTargetGrad, hj, if_true]
      rw [h1]
      simp [invC]
    · simp only [multiTargetGrad]
      cases hg : (multiLossGrad X (oneHot y) (invC none) none (fun _ => 1)
        (fun c => maskedW (S c) (v.1 c)) (interceptArg fi v.2)).2.2 with
      | none => simp
      | some g => exact h2 g hg
  | zero => simp
  | add x y _ _ hx hy =>
    refine ⟨fun j hj => ?_, ?_⟩
    · simp [Finset.sum_add_distrib, hx.1 j hj, hy.1 j hj]
    · simp [Finset.sum_add_distrib, hx.2, hy.2]
  | smul a x _ hx =>
    refine ⟨fun j hj => ?_, ?_⟩
    · simp [← Finset.mul_sum, hx.1 j hj]
    · simp [← Finset.mul_sum, hx.2]

/-- Entries outside the mask, and absent intercepts, stay where they are. -/
theorem span_fixed {fi : Bool} {S : Fin k → Fin p → Bool} {X : Fin n → Fin p → ℝ}
    {y : Fin n → Fin k} {d : (Fin k → Fin p → ℝ) × (Fin k → ℝ)}
    (h : d ∈ Submodule.span ℝ (Set.range (multiTargetGrad none fi S X y))) :
    (∀ c j, S c j = false → d.1 c j = 0) ∧ (fi = false → ∀ c, d.2 c = 0) := by
  induction h using Submodule.span_induction with
  | mem x hx =>
    obtain ⟨v, rfl⟩ := hx
    exact ⟨fun c j hj => by simp [multiTargetGrad, hj],
      fun hf c => by simp [multiTargetGrad, multiLossGrad, interceptArg, hf]⟩
  | zero => exact ⟨fun _ _ _ => rfl, fun _ _ => rfl⟩
  | add x y _ _ hx hy =>
    exact ⟨fun c j hj => by simp [hx.1 c j hj, hy.1 c j hj], fun hf c => by simp [hx.2 hf c, hy.2 hf c]⟩
  | smul a x _ hx =>
    exact ⟨fun c j hj => by simp [hx.1 c j hj], fun hf c => by simp [hx.2 hf c]⟩

end Verif.Lemmas.Identify
