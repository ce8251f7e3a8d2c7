import Verif.Model.Poisson
import Verif.Spec.PoissonMode
/-! Helper lemmas for the predicted counts of a Poisson model. -/
namespace Verif.Poisson
open Verif.Py Verif.Scaling Verif.Spec.Poisson
variable {p : Nat}

theorem prob_succ (mu : ℝ) (k : Nat) : (k + 1) * poisProb mu (k + 1) = mu * poisProb mu k := by
  unfold poisProb
  have : (Nat.factorial k : ℝ) ≠ 0 := by exact_mod_cast (Nat.factorial_pos k).ne'
  rw [Nat.factorial_succ]
  push_cast
  field_simp
  ring

theorem prob_nonneg {mu : ℝ} (h : 0 ≤ mu) (k : Nat) : 0 ≤ poisProb mu k := by
  unfold poisProb; positivity

/-- Up to the mean the probabilities increase. -/
theorem prob_up {mu : ℝ} (h0 : 0 ≤ mu) {j k : Nat} (hjk : j ≤ k) (hk : (k : ℝ) ≤ mu) :
    poisProb mu j ≤ poisProb mu k := by
  induction k, hjk using Nat.le_induction with
  | base => exact le_rfl
  | succ k _ ih =>
    push_cast at hk
    refine (ih (by linarith)).trans ?_
    have h1 := prob_succ mu k
    have h2 := prob_nonneg h0 k
    have h3 : (0 : ℝ) < k + 1 := by positivity
    refine le_of_mul_le_mul_left ?_ h3
    rw [h1]
    exact mul_le_mul_of_nonneg_right hk h2

/-- Beyond it they decrease. -/
theorem prob_down {mu : ℝ} (h0 : 0 ≤ mu) {j k : Nat} (hkj : k < j) (hk : mu < k + 1) (hpos : 0 < poisProb mu k) :
    poisProb mu j < poisProb mu k := by
  induction j, hkj using Nat.le_induction with
  | base =>
    have h1 := prob_succ mu k
    have h3 : (0 : ℝ) < k + 1 := by positivity
    refine lt_of_mul_lt_mul_left ?_ h3.le
    rw [Nat.succ_eq_add_one, h1]
    exact mul_lt_mul_of_pos_right hk hpos
  | succ j hj ih =>
    refine lt_of_le_of_lt ?_ ih
    have h1 := prob_succ mu j
    have h2 := prob_nonneg h0 j
    have h3 : (0 : ℝ) < j + 1 := by positivity
    have h4 : ((k : ℝ) + 1) ≤ j := by exact_mod_cast hj
    refine le_of_mul_le_mul_left ?_ h3
    rw [h1]
    exact mul_le_mul_of_nonneg_right (by linarith) h2

theorem prob_floor_pos {mu : ℝ} (h0 : 0 ≤ mu) : 0 < poisProb mu ⌊mu⌋₊ := by
  rcases h0.eq_or_lt with rfl | h
  · simp [poisProb]
  · unfold poisProb; positivity

theorem mean_nonneg (c : Fin p → ℝ) (b : WithBot ℝ) (x : Fin p → ℝ) : 0 ≤ Scaling.predictMean c b x := by
  unfold Scaling.predictMean
  cases poisPred c b x with
  | bot => exact le_rfl
  | coe v => exact (Real.exp_pos v).le

end Verif.Poisson
