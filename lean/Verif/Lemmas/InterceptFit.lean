import Verif.Model.InterceptFit
import Verif.Spec.InterceptFit
import Verif.Lemmas.Logistic
/-! Lemmas on the re-fit of the intercept. -/
namespace Verif.Logistic
open Verif.Py Verif.Utils Verif.Spec.InterceptFit Verif.Spec.Logistic

variable {n k : Nat}

/-- The sign of a label. -/
def sgn (y : Fin 2) : ℝ := if y = 1 then 1 else -1

theorem prob1_eq (t : ℝ) : prob1 t = expit t := by
  unfold prob1 expit
  rw [Real.exp_neg]
  have := Real.exp_pos t
  field_simp
  ring

theorem sigmoid_expit (t : ℝ) : sigmoid t = expit t := sigmoid_eq t

/-- The loss of one sample. -/
theorem sample_loss (y : Fin 2) (t : ℝ) :
    -Real.log (if y = 1 then prob1 t else 1 - prob1 t) = Real.log (1 + Real.exp (-(sgn y * t))) := by
  rcases Fin.exists_fin_two.1 ⟨y, rfl⟩ with h | h <;> rw [h]
  · rw [if_neg (by decide), prob1_eq, ← expit_neg]
    simp [sgn, expit]
  · rw [if_pos rfl, prob1_eq]
    simp [sgn, expit]

theorem interceptBin_value (eta : Fin n → ℝ) (y : Fin n → Fin 2) (b : ℝ) :
    (interceptBin eta y b).1 = nll eta y b := by
  unfold interceptBin nll mean
  dsimp only
  rw [div_eq_inv_mul, one_div]
  congr 1
  refine Finset.sum_congr rfl fun i _ => ?_
  rw [sigmoid_expit, ← prob1_eq]
  rcases Fin.exists_fin_two.1 ⟨y i, rfl⟩ with h | h <;> rw [h]
  · rw [if_neg (by decide)]; simp
  · rw [if_pos rfl]; simp

theorem interceptBin_grad (eta : Fin n → ℝ) (y : Fin n → Fin 2) (b : ℝ) :
    (interceptBin eta y b).2 = 1 / n * ∑ i, (expit (sgn (y i) * (eta i + b)) - 1) * sgn (y i) := by
  unfold interceptBin mean
  dsimp only
  rw [← sub_div, ← Finset.sum_sub_distrib, div_eq_inv_mul, one_div]
  congr 1
  refine Finset.sum_congr rfl fun i _ => ?_
  rw [sigmoid_expit, ← sample_grad]
  rfl

theorem nll_eq (eta : Fin n → ℝ) (y : Fin n → Fin 2) (b : ℝ) :
    nll eta y b = 1 / n * ∑ i, Real.log (1 + Real.exp (-(sgn (y i) * (eta i + b)))) := by
  unfold nll
  simp only [sample_loss]

theorem nll_tangent (eta : Fin n → ℝ) (y : Fin n → Fin 2) (b b' : ℝ) :
    nll eta y b + (interceptBin eta y b).2 * (b' - b) ≤ nll eta y b' := by
  rw [nll_eq, nll_eq, interceptBin_grad, mul_assoc, ← mul_add, Finset.sum_mul, ← Finset.sum_add_distrib]
  refine mul_le_mul_of_nonneg_left (Finset.sum_le_sum fun i _ => ?_) (by positivity)
  have := softplus_tangent (sgn (y i) * (eta i + b)) (sgn (y i) * (eta i + b'))
  refine le_trans (le_of_eq ?_) this
  ring

theorem nll_deriv (eta : Fin n → ℝ) (y : Fin n → Fin 2) (b : ℝ) :
    HasDerivAt (nll eta y) (interceptBin eta y b).2 b := by
  have h : HasDerivAt (fun t : ℝ => nll eta y (b + t)) (interceptBin eta y b).2 0 := by
    simp only [nll_eq]
    rw [interceptBin_grad]
    refine HasDerivAt.const_mul _ (HasDerivAt.fun_sum fun i _ => ?_)
    have h1 : HasDerivAt (fun t : ℝ => sgn (y i) * (eta i + (b + t))) (sgn (y i)) 0 := by
      simpa using (((hasDerivAt_id (0 : ℝ)).const_add b).const_add (eta i)).const_mul (sgn (y i))
    have h2 := deriv_softplus h1
    rw [add_zero] at h2
    exact h2
  have h' : HasDerivAt (fun t : ℝ => nll eta y (b + t)) (interceptBin eta y b).2 (-b + b) := by
    rw [neg_add_cancel]; exact h
  have := HasDerivAt.comp_const_add (-b) b h'
  simpa using this

/-! ### Several classes -/

theorem prob_logProb [NeZero k] (t : Fin k → ℝ) (c : Fin k) : prob t c = Real.exp (logProb t c) := by
  unfold prob logProb
  rw [Real.exp_sub, Real.exp_log (sum_exp_pos t)]

theorem softmax_prob [NeZero k] (t : Fin k → ℝ) (c : Fin k) : softmax t c = prob t c := softmax_eq t c

theorem interceptMulti_value (eta : Fin n → Fin (k + 1) → ℝ) (y : Fin n → Fin (k + 1)) (s : Fin k → ℝ) :
    (interceptMulti eta y s).1 = nllM eta y (Fin.cons 1 s) := by
  unfold interceptMulti nllM mean
  dsimp only
  rw [div_eq_inv_mul, one_div]
  simp only [softmax_prob]

theorem foldl_sub (l : List (Fin n)) (f : Fin n → Fin k → ℝ) (d : Fin k → ℝ) (c : Fin k) :
    l.foldl (fun d i c => d c - f i c) d c = d c - (l.map fun i => f i c).sum := by
  induction l generalizing d with
  | nil => simp
  | cons a l ih => rw [List.foldl_cons, ih, List.map_cons, List.sum_cons]; ring

theorem dlogpi_eq (ii : Fin (k + 1)) (q : Fin (k + 1) → ℝ) (c : Fin k) :
    dlogpi ii q c = (if ii = c.succ then 1 else 0) - q c.succ := by
  unfold dlogpi
  refine Fin.cases ?_ (fun j => ?_) ii
  · rw [if_pos rfl, if_neg (Fin.succ_ne_zero c).symm]; ring
  · rw [if_neg (Fin.succ_ne_zero j)]
    congr 1
    simp only [Fin.val_succ, Nat.add_sub_cancel, Fin.succ_inj]
    by_cases h : c = j
    · rw [if_pos (by rw [h]), if_pos h.symm]
    · rw [if_neg (fun h' => h (Fin.ext h')), if_neg (fun h' => h h'.symm)]

/-- The gradient with respect to all intercepts. -/
noncomputable def fullGrad (eta : Fin n → Fin k → ℝ) (y : Fin n → Fin k) (B : Fin k → ℝ) (c : Fin k) : ℝ :=
  1 / n * ∑ i, (prob (fun c => eta i c + B c) c - if y i = c then 1 else 0)

theorem interceptMulti_grad (eta : Fin n → Fin (k + 1) → ℝ) (y : Fin n → Fin (k + 1)) (s : Fin k → ℝ) (c : Fin k) :
    (interceptMulti eta y s).2 c = fullGrad eta y (Fin.cons 1 s) c.succ := by
  unfold interceptMulti fullGrad
  dsimp only
  rw [foldl_sub _ (fun i c => dlogpi (y i) (softmax fun c => eta i c + (Fin.cons 1 s : Fin (k + 1) → ℝ) c) c / n),
    ← List.ofFn_eq_map, List.sum_ofFn, zero_sub, ← Finset.sum_neg_distrib, Finset.mul_sum]
  refine Finset.sum_congr rfl fun i _ => ?_
  rw [dlogpi_eq, softmax_prob]
  ring

theorem nllM_eq [NeZero k] (eta : Fin n → Fin k → ℝ) (y : Fin n → Fin k) (B : Fin k → ℝ) :
    nllM eta y B = 1 / n * ∑ i, (Real.log (∑ c, Real.exp (eta i c + B c)) - (eta i (y i) + B (y i))) := by
  unfold nllM
  congr 1
  refine Finset.sum_congr rfl fun i _ => ?_
  rw [prob_logProb, Real.log_exp]
  unfold logProb
  ring

theorem fullGrad_dot [NeZero k] (eta : Fin n → Fin k → ℝ) (y : Fin n → Fin k) (B d : Fin k → ℝ) :
    ∑ c, fullGrad eta y B c * d c =
      1 / n * ∑ i, (∑ c, Real.exp (logProb (fun c => eta i c + B c) c) * d c - d (y i)) := by
  unfold fullGrad
  simp only [prob_logProb]
  simp only [mul_assoc]
  rw [← Finset.mul_sum]
  congr 1
  simp only [Finset.sum_mul]
  rw [Finset.sum_comm]
  refine Finset.sum_congr rfl fun i _ => ?_
  simp only [sub_mul, Finset.sum_sub_distrib, ite_mul, one_mul, zero_mul]
  congr 1
  simp

theorem nllM_tangent [NeZero k] (eta : Fin n → Fin k → ℝ) (y : Fin n → Fin k) (B B' : Fin k → ℝ) :
    nllM eta y B + ∑ c, fullGrad eta y B c * (B' c - B c) ≤ nllM eta y B' := by
  rw [nllM_eq, nllM_eq, fullGrad_dot, ← mul_add, ← Finset.sum_add_distrib]
  refine mul_le_mul_of_nonneg_left (Finset.sum_le_sum fun i _ => ?_) (by positivity)
  have := lse_tangent (fun c => eta i c + B c) (fun c => eta i c + B' c)
  simp only [add_sub_add_left_eq_sub] at this
  linarith

theorem nllM_deriv [NeZero k] (eta : Fin n → Fin k → ℝ) (y : Fin n → Fin k) (B d : Fin k → ℝ) :
    HasDerivAt (fun t : ℝ => nllM eta y (fun c => B c + t * d c)) (∑ c, fullGrad eta y B c * d c) 0 := by
  simp only [nllM_eq]
  rw [fullGrad_dot]
  refine HasDerivAt.const_mul _ (HasDerivAt.fun_sum fun i _ => ?_)
  have h1 : ∀ c, HasDerivAt (fun t : ℝ => eta i c + (B c + t * d c)) (d c) 0 := by
    intro c
    simpa using ((((hasDerivAt_id (0 : ℝ)).mul_const (d c)).const_add (B c))).const_add (eta i c)
  have h2 := deriv_lse h1
  simp only [zero_mul, add_zero] at h2
  exact h2.fun_sub (h1 (y i))

/-- Shifting all intercepts changes nothing. -/
theorem prob_shift (t : Fin k → ℝ) (a : ℝ) (c : Fin k) : prob (fun c => t c + a) c = prob t c := by
  unfold prob
  simp only [Real.exp_add]
  rw [← Finset.sum_mul, mul_div_mul_right _ _ (Real.exp_pos a).ne']

theorem prob_add_shift (eta B : Fin k → ℝ) (a : ℝ) (c : Fin k) :
    prob (fun c => eta c + (B c + a)) c = prob (fun c => eta c + B c) c := by
  rw [← prob_shift (fun c => eta c + B c) a c]
  simp only [add_assoc]

theorem nllM_shift (eta : Fin n → Fin k → ℝ) (y : Fin n → Fin k) (B : Fin k → ℝ) (a : ℝ) :
    nllM eta y (fun c => B c + a) = nllM eta y B := by
  unfold nllM
  simp only [prob_add_shift]

theorem sum_prob [NeZero k] (t : Fin k → ℝ) : ∑ c, prob t c = 1 := by
  unfold prob
  rw [← Finset.sum_div, div_self (sum_exp_pos t).ne']

theorem sum_fullGrad [NeZero k] (eta : Fin n → Fin k → ℝ) (y : Fin n → Fin k) (B : Fin k → ℝ) :
    ∑ c, fullGrad eta y B c = 0 := by
  unfold fullGrad
  rw [← Finset.mul_sum, Finset.sum_comm]
  simp [Finset.sum_sub_distrib, sum_prob]

end Verif.Logistic
