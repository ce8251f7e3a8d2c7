import Mathlib.Tactic.FinCases
import Verif.Lemmas.Identify
import Verif.Props.PoissonMin
/-!
Whether the training samples determine the coefficients of a Poisson model.
-/
namespace Verif.Props
open Verif.Poisson Verif.Spec.LogisticMin Verif.Spec.Identify Verif.Lemmas.Identify

variable {n p : Nat}

/-- **C151**: if no feature is a combination of the others (and of a constant where an intercept is fitted), all solutions of
    a Poisson fit with L-BFGS have the same coefficients and intercept, with and without penalty. -/
theorem C151_unique {alpha l1 : ℝ} (ha : 0 ≤ alpha) (h0 : 0 ≤ l1) (h1 : l1 ≤ 1) {fi : Bool}
    {X : Fin n → Fin p → ℝ} (y : Fin n → ℝ) (hX : Independent fi (fun _ => true) X) {u v : (Fin p → ℝ) × ℝ}
    (hu : ∀ x, poisTarget alpha l1 fi X y u ≤ poisTarget alpha l1 fi X y x)
    (hv : ∀ x, poisTarget alpha l1 fi X y v ≤ poisTarget alpha l1 fi X y x) :
    u.1 = v.1 ∧ (fi = true → u.2 = v.2) := by
  have h := (C131_unique ha h0 h1 fi X y hu hv).1
  obtain ⟨h1, h2⟩ := hX (u.1 - v.1) ((if fi then u.2 else 0) - if fi then v.2 else 0)
    ⟨fun j hj => (by cases hj), fun hf => by simp [hf]⟩ (fun i => by rw [score_sub, h i, sub_self])
  exact ⟨sub_eq_zero.mp h1, fun hf => by simpa [hf, sub_eq_zero] using h2⟩

/-- With an L2 part in the penalty the features need not be independent. -/
theorem C151_penalised {alpha l1 : ℝ} (ha : 0 < alpha) (h0 : 0 ≤ l1) (h1 : l1 < 1) {fi : Bool}
    {X : Fin n → Fin p → ℝ} (y : Fin n → ℝ) (hn : n ≠ 0) {u v : (Fin p → ℝ) × ℝ}
    (hu : ∀ x, poisTarget alpha l1 fi X y u ≤ poisTarget alpha l1 fi X y x)
    (hv : ∀ x, poisTarget alpha l1 fi X y v ≤ poisTarget alpha l1 fi X y x) :
    u.1 = v.1 ∧ (fi = true → u.2 = v.2) := by
  obtain ⟨h, hw⟩ := C131_unique ha.le h0 h1.le fi X y hu hv
  refine ⟨hw ha h1, fun hf => ?_⟩
  have := h ⟨0, Nat.pos_of_ne_zero hn⟩
  simpa [score, hw ha h1, hf] using this

/-- In the estimation fit (`alpha = 0`) they must be: dependent features give every solution a second one, whose predictions are
    the same on the training samples. -/
theorem C151_dependent {l1 : ℝ} {fi : Bool} {X : Fin n → Fin p → ℝ} {y : Fin n → ℝ}
    (hX : ¬ Independent fi (fun _ => true) X) {u : (Fin p → ℝ) × ℝ}
    (hu : ∀ x, poisTarget 0 l1 fi X y u ≤ poisTarget 0 l1 fi X y x) :
    ∃ v : (Fin p → ℝ) × ℝ, (∀ x, poisTarget 0 l1 fi X y v ≤ poisTarget 0 l1 fi X y x) ∧
      ¬ (u.1 = v.1 ∧ (fi = true → u.2 = v.2)) := by
  simp only [Independent, not_forall] at hX
  obtain ⟨d, e, hw, hz, hne⟩ := hX
  have hs : etaL fi X (d, e) = 0 := funext fun i => by rw [etaL_score X hw.2, hz i]; rfl
  refine ⟨u + (d, e), fun x => le_trans (le_of_eq ?_) (hu x), fun hc => hne ⟨?_, ?_⟩⟩
  · rw [poisTarget_eq, poisTarget_eq, map_add, hs, add_zero]
    simp [penP]
  · simpa using hc.1
  · cases hf : fi with
    | false => exact hw.2 hf
    | true => simpa using hc.2 hf

/-- The estimation fit of data that have a solution determines its coefficients exactly if the features are independent. -/
theorem C151_iff (l1 : ℝ) (h0 : 0 ≤ l1) (h1 : l1 ≤ 1) {fi : Bool} {X : Fin n → Fin p → ℝ} {y : Fin n → ℝ}
    (ha : Attained (poisTarget 0 l1 fi X y)) :
    (∀ u v : (Fin p → ℝ) × ℝ, (∀ x, poisTarget 0 l1 fi X y u ≤ poisTarget 0 l1 fi X y x) →
      (∀ x, poisTarget 0 l1 fi X y v ≤ poisTarget 0 l1 fi X y x) → u.1 = v.1 ∧ (fi = true → u.2 = v.2)) ↔
    Independent fi (fun _ => true) X := by
  constructor
  · intro h
    by_contra hX
    obtain ⟨u, hu⟩ := ha
    obtain ⟨v, hv, hne⟩ := C151_dependent hX hu
    exact hne (h u v hu hv)
  · exact fun hX u v hu hv => C151_unique le_rfl h0 h1 y hX hu hv

/-- Two positive counts and one feature: there is a solution, and only one. -/
example : ∃ u : (Fin 1 → ℝ) × ℝ, ∀ v : (Fin 1 → ℝ) × ℝ,
    (∀ x : (Fin 1 → ℝ) × ℝ, poisTarget 0 1 true (![![1], ![2]] : Fin 2 → Fin 1 → ℝ) ![1, 2] v ≤
      poisTarget 0 1 true ![![1], ![2]] ![1, 2] x) → u.1 = v.1 ∧ u.2 = v.2 := by
  have hX : Independent true (fun _ => true) (![![1], ![2]] : Fin 2 → Fin 1 → ℝ) := by
    intro d e _ h
    have h0 := h 0
    have h1 := h 1
    simp [score] at h0 h1
    have hd : d 0 = 0 := by linarith
    refine ⟨funext fun j => ?_, by linarith⟩
    fin_cases j
    exact hd
  have hy : ∀ i, 0 ≤ (![1, 2] : Fin 2 → ℝ) i := fun i => by fin_cases i <;> simp
  obtain ⟨u, hu⟩ := (C131_partial 1 true (![![1], ![2]] : Fin 2 → Fin 1 → ℝ) hy).2 (by
    rintro ⟨d, e, -, hpos, -, i, hi⟩
    have := hpos i (by fin_cases i <;> simp)
    linarith)
  refine ⟨u, fun v hv => ?_⟩
  obtain ⟨a, b⟩ := C151_unique le_rfl zero_le_one le_rfl _ hX hu hv
  exact ⟨a, b rfl⟩

/-- A repeated feature is not independent. -/
example : ¬ Independent true (fun _ => true) (![![1, 1], ![2, 2]] : Fin 2 → Fin 2 → ℝ) := by
  intro h
  have := (h ![1, -1] 0 ⟨fun j hj => (by cases hj), fun hf => (by cases hf)⟩
    (fun i => by fin_cases i <;> simp [score])).1
  have := congrFun this 0
  simp at this

end Verif.Props
