import Verif.Lemmas.PoissonMode
import Mathlib.Analysis.SpecialFunctions.Log.Basic
/-!
The predicted counts of a Poisson model (C137).
-/
namespace Verif.Poisson
open Verif.Py Verif.Scaling Verif.Spec.Poisson
variable {p : Nat}

/-! ### C137 -/

/-- C137.  `predict` of a fitted model (also one with the intercept minus infinity) returns, for each row, the
    largest of the most probable counts under the distribution with the mean that `predict_mean` returns. -/
theorem C137_mode {m : Nat} (o : PObj p) (X : Fin m → Fin p → ℝ) (mu r : Fin m → ℝ)
    (hmu : o.predictMean X = .ok mu) (hr : o.predict X = .ok r) (i : Fin m) :
    ∃ k : Nat, r i = k ∧ IsMode (mu i) k ∧ ∀ j, IsMode (mu i) j → j ≤ k := by
  have h0 : 0 ≤ mu i := by
    unfold PObj.predictMean at hmu
    split at hmu
    · cases hmu; exact mean_nonneg _ _ _
    · cases hmu
  have hri : r i = (⌊mu i⌋ : ℝ) := by
    unfold PObj.predict at hr
    rw [hmu] at hr
    cases hr
    rfl
  have hfl : (⌊mu i⌋ : ℝ) = (⌊mu i⌋₊ : ℝ) := by
    rw [← Int.natCast_floor_eq_floor h0]; rfl
  have hlt : ∀ j, ⌊mu i⌋₊ < j → poisProb (mu i) j < poisProb (mu i) ⌊mu i⌋₊ := fun j hj =>
    prob_down h0 hj (Nat.lt_floor_add_one _) (prob_floor_pos h0)
  refine ⟨⌊mu i⌋₊, by rw [hri, hfl], fun j => ?_, fun j hj => ?_⟩
  · rcases le_or_gt j ⌊mu i⌋₊ with h | h
    · exact prob_up h0 h (Nat.floor_le h0)
    · exact (hlt j h).le
  · by_contra hn
    exact absurd (hj ⌊mu i⌋₊) (not_le.2 (hlt j (not_le.1 hn)))

/-- C137.  The prediction is unique except if the mean is a positive integer; then the count below it is equally
    probable. -/
theorem C137_unique (mu : ℝ) (h0 : 0 ≤ mu) (j k : Nat) (hj : IsMode mu j) (hk : IsMode mu k) (hjk : j < k) :
    mu = k ∧ j + 1 = k := by
  have key : ∀ i : Nat, IsMode mu i → (i : ℝ) ≤ mu ∧ mu ≤ i + 1 := by
    intro i hi
    have hpos : 0 < poisProb mu i := lt_of_lt_of_le (prob_floor_pos h0) (hi _)
    refine ⟨?_, ?_⟩
    · cases i with
      | zero => simpa using h0
      | succ i =>
        have h1 := prob_succ mu i
        have h2 := hi i
        by_contra hn
        push Not at hn
        have h3 := prob_nonneg h0 i
        push_cast at hn
        nlinarith
    · have h1 := prob_succ mu i
      have h2 := hi (i + 1)
      by_contra hn
      push Not at hn
      have h3 : (0 : ℝ) < i + 1 := by positivity
      nlinarith
  have a := (key j hj).2
  have b := (key k hk).1
  have c : (j : ℝ) + 1 ≤ k := by exact_mod_cast hjk
  refine ⟨by linarith, ?_⟩
  have : (k : ℝ) ≤ j + 1 := by linarith
  have : k ≤ j + 1 := by exact_mod_cast this
  omega

/-- A model with mean 3: it predicts 3; and 2 is equally probable. -/
example : (⟨some fun _ => 0, some ((Real.log 3 : ℝ) : WithBot ℝ)⟩ : PObj 1).predict ![![5]] = .ok ![3] ∧
    IsMode 3 3 ∧ IsMode 3 2 := by
  have hm : (⟨some fun _ => 0, some ((Real.log 3 : ℝ) : WithBot ℝ)⟩ : PObj 1).predictMean ![![5]] = .ok fun _ => 3 := by
    simp only [PObj.predictMean]
    congr 1
    funext i
    have : poisPred (fun _ : Fin 1 => (0 : ℝ)) ((Real.log 3 : ℝ) : WithBot ℝ) (![![5]] i) = ((Real.log 3 : ℝ) : WithBot ℝ) := by
      unfold poisPred
      rw [← WithBot.coe_add]
      congr 1
      simp
    unfold Scaling.predictMean
    rw [this]
    exact Real.exp_log (by norm_num)
  have hp : (⟨some fun _ => 0, some ((Real.log 3 : ℝ) : WithBot ℝ)⟩ : PObj 1).predict ![![5]] = .ok ![3] := by
    unfold PObj.predict
    rw [hm]
    show Except.ok (fun _ : Fin 1 => ((⌊(3 : ℝ)⌋ : Int) : ℝ)) = .ok ![3]
    congr 1
    funext i
    fin_cases i
    simp
  obtain ⟨k, h1, h2, _⟩ := C137_mode _ _ _ _ hm hp 0
  have hk : k = 3 := by
    have : (3 : ℝ) = k := h1
    exact_mod_cast this.symm
  rw [hk] at h2
  refine ⟨hp, h2, fun j => (h2 j).trans (le_of_eq ?_)⟩
  have := prob_succ 3 2
  push_cast at this
  linarith

end Verif.Poisson
