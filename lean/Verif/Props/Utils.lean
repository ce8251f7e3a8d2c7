import Verif.Model.Utils
import Verif.Spec.Utils
import Mathlib.Topology.Algebra.Order.Field
import Mathlib.Analysis.SpecificLimits.Basic
import Mathlib.Algebra.BigOperators.Field
import Mathlib.Algebra.BigOperators.Fin
import Mathlib.Analysis.Complex.ExponentialBounds
import Verif.Lemmas.Utils
/-!
C29-C31, C33-C35: information criteria, log-likelihoods, softmax, sigmoid, loggers.
-/
namespace Verif.Utils
open Verif.Py Verif.Spec.Utils

/-! ### C33 -/

/-- **C33**: the output is positive and sums to one; it has the order of the input, does not change
    when a constant is added, and no positive number is exponentiated. -/
theorem C33_softmax_distribution {n : Nat} [NeZero n] (y : Fin n → ℝ) :
    (∀ i, 0 < softmax y i) ∧ ∑ i, softmax y i = 1 ∧
      (∀ i j, softmax y i ≤ softmax y j ↔ y i ≤ y j) ∧
      (∀ c, softmax (fun i => y i + c) = softmax y) ∧ ∀ i, softmaxShift y i ≤ 0 := by
  refine ⟨fun i => ?_, ?_, fun i j => ?_, fun c => ?_, softmaxShift_nonpos y⟩
  · rw [softmax_eq]
    exact div_pos (Real.exp_pos _) (sum_exp_pos y)
  · simp only [softmax_eq, ← Finset.sum_div]
    exact div_self (sum_exp_pos y).ne'
  · rw [softmax_eq, softmax_eq, div_le_div_iff_of_pos_right (sum_exp_pos y), Real.exp_le_exp]
  · funext i
    rw [softmax_eq, softmax_eq]
    simp only [Real.exp_add, ← Finset.sum_mul]
    have := Real.exp_ne_zero c
    field_simp

/-- Two classes, the first with the larger value. -/
example : softmax ![(3 : ℝ), 1] 1 ≤ softmax ![(3 : ℝ), 1] 0 :=
  ((C33_softmax_distribution ![(3 : ℝ), 1]).2.2.1 1 0).2 (by norm_num)

/-! ### C34 -/

/-- **C34**. -/
theorem C34_sigmoid_logistic :
    (∀ x, sigmoid x = 1 / (1 + Real.exp (-x))) ∧ (∀ x, 0 < sigmoid x ∧ sigmoid x < 1) ∧
      StrictMono sigmoid ∧ ∀ x, sigmoid (-x) = 1 - sigmoid x := by
  refine ⟨sigmoid_eq, fun x => ?_, fun x y hxy => ?_, fun x => ?_⟩
  · have h := Real.exp_pos (-x)
    rw [sigmoid_eq]
    exact ⟨by positivity, by rw [div_lt_one (by positivity)]; linarith⟩
  · have h := Real.exp_pos (-y)
    rw [sigmoid_eq, sigmoid_eq]
    have : Real.exp (-y) < Real.exp (-x) := Real.exp_lt_exp.2 (by linarith)
    exact one_div_lt_one_div_of_lt (by positivity) (by linarith)
  · have h := Real.exp_pos x
    have h' := Real.exp_pos (-x)
    rw [sigmoid_eq, sigmoid_eq, neg_neg, Real.exp_neg]
    field_simp
    ring

example : sigmoid (-2) < sigmoid 3 ∧ sigmoid (-3) = 1 - sigmoid 3 :=
  ⟨C34_sigmoid_logistic.2.2.1 (by norm_num), C34_sigmoid_logistic.2.2.2 3⟩

/-! ### C29 -/

/-- **C29** for the log-likelihood: at a fixed support size each negated criterion is strictly
    increasing in the log-likelihood. -/
theorem C29_prefers_likelihood (k n : Nat) :
    StrictMono (fun ll => -AIC ll k) ∧ StrictMono (fun ll => -AICc ll k n) ∧
      StrictMono (fun ll => -BIC ll k n) := by
  refine ⟨fun a b h => ?_, fun a b h => ?_, fun a b h => ?_⟩ <;>
    simp only [AIC, AICc, BIC] <;> (try split) <;> linarith

/-- **C29** for the support size, on the supports that the sample can correct for (`AICc` needs
    `n > k + 1` for the larger support): at equal log-likelihood the smaller support has the better
    score.  Missing: `AICc` at the boundary, see `C29_negation`. -/
theorem C29_prefers_small_support_partial (ll : ℝ) {k k' n : Nat} (h : k < k') (hn : 2 ≤ n) :
    -AIC ll k' < -AIC ll k ∧ -BIC ll k' n < -BIC ll k n ∧
      (k' + 1 < n → -AICc ll k' n < -AICc ll k n) := by
  have h1 : (k : ℝ) < k' := by exact_mod_cast h
  refine ⟨?_, ?_, fun hn' => ?_⟩
  · simp only [AIC]; linarith
  · have : 0 < Real.log n := Real.log_pos (by exact_mod_cast hn)
    simp only [BIC]; nlinarith
  · have := aicc_correction h.le hn'
    simp only [AICc, AIC]
    rw [if_pos (by omega), if_pos (by omega)]
    linarith

/-- **C29** is false for `AICc`: with 10 samples and equal log-likelihoods, 9 features are scored
    better than 8, because the correction disappears when `n_samples <= n_features + 1`. -/
theorem C29_negation (ll : ℝ) : -AICc ll 8 10 < -AICc ll 9 10 := by
  simp only [AICc, AIC]
  norm_num
  linarith

/-- **C29**: `AICc` is at least `AIC`, equal to it when `n_samples <= n_features + 1`, and tends to
    it as the sample grows. -/
theorem C29_aicc_correction (ll : ℝ) (k : Nat) :
    (∀ n, AIC ll k ≤ AICc ll k n) ∧ (∀ n, n ≤ k + 1 → AICc ll k n = AIC ll k) ∧
      Filter.Tendsto (fun n => AICc ll k n) Filter.atTop (nhds (AIC ll k)) := by
  refine ⟨fun n => ?_, fun n hn => ?_, ?_⟩
  · unfold AICc
    split
    · rename_i h
      have : (k : ℝ) + 1 < n := by exact_mod_cast h
      have : 0 ≤ 2 * ((k : ℝ) ^ 2 + k) / ((n : ℝ) - k - 1) :=
        div_nonneg (by positivity) (by linarith)
      linarith
    · exact le_refl _
  · rw [AICc, if_neg (by omega)]
  · have h1 : Filter.Tendsto (fun n : ℕ => (n : ℝ) - k - 1) Filter.atTop Filter.atTop := by
      have := (tendsto_natCast_atTop_atTop (R := ℝ)).atTop_add
        (tendsto_const_nhds (x := (-(k : ℝ) - 1)))
      refine this.congr fun n => ?_
      ring
    have h2 := (h1.const_div_atTop (2 * ((k : ℝ) ^ 2 + k))).const_add (AIC ll k)
    rw [add_zero] at h2
    refine h2.congr' ?_
    filter_upwards [Filter.eventually_gt_atTop (k + 1)] with n hn
    rw [AICc, if_pos hn]

example : -AICc 3 5 20 < -AICc 3 4 20 ∧ AIC 3 5 ≤ AICc 3 5 20 :=
  ⟨(C29_prefers_small_support_partial 3 (by decide) (by decide)).2.2 (by decide),
    (C29_aicc_correction 3 5).1 20⟩

/-! ### C30 -/

/-- **C30**: for residuals that are not all zero the 'normal' log-likelihood, minus the constant
    `(n/2) log(2π)`, is attained by the Gaussian log-density for some variance and no variance gives
    more. -/
theorem C30_profile_likelihood {n : Nat} (y p : Fin n → ℝ) (h : ∃ i, y i ≠ p i) :
    ∃ ll, llNormal y p = .fin ll ∧
      IsGreatest {l | ∃ v > 0, l = gaussLL (fun i => y i - p i) v}
        (ll - n / 2 * Real.log (2 * Real.pi)) := by
  obtain ⟨i0, hi0⟩ := h
  have hn : (0 : ℝ) < n := by
    have : 0 < n := Nat.lt_of_le_of_lt (Nat.zero_le _) i0.2
    exact_mod_cast this
  have hS : 0 < ∑ i, (y i - p i) ^ 2 := by
    apply Finset.sum_pos' (fun i _ => sq_nonneg _)
    exact ⟨i0, Finset.mem_univ _, by have := sub_ne_zero.2 hi0; positivity⟩
  set Ssum := ∑ i, (y i - p i) ^ 2 with hSd
  have hm : (mean fun i => (y i - p i) ^ 2) = Ssum / n := rfl
  have hm0 : 0 < Ssum / n := by positivity
  refine ⟨-(n : ℝ) / 2 * (1 + Real.log (Ssum / n)), ?_, ⟨Ssum / n, hm0, ?_⟩, ?_⟩
  · simp only [llNormal, hm]
    rw [if_neg hm0.ne']
  · rw [gaussLL_eq, Real.log_mul (by positivity) hm0.ne']
    have : Ssum / (2 * (Ssum / n)) = n / 2 := by field_simp
    simp only [← hSd, this]
    ring
  · rintro l ⟨v, hv, rfl⟩
    rw [gaussLL_eq, Real.log_mul (by positivity) hv.ne']
    simp only [← hSd]
    have hl := Real.log_le_sub_one_of_pos (show 0 < Ssum / n / v by positivity)
    rw [Real.log_div hm0.ne' hv.ne'] at hl
    have : Ssum / (2 * v) = n / 2 * (Ssum / n / v) := by field_simp
    rw [this]
    nlinarith

/-- Residuals 1 and -2. -/
example : ∃ ll, llNormal ![(1 : ℝ), 2] ![(0 : ℝ), 4] = .fin ll := by
  obtain ⟨ll, h, _⟩ := C30_profile_likelihood ![(1 : ℝ), 2] ![(0 : ℝ), 4] ⟨0, by norm_num⟩
  exact ⟨ll, h⟩

/-! ### C31 -/

/-- **C31**: for counts `y` and positive predictions `p`, `n_samples` times the score is the Poisson
    log-probability plus a term that does not depend on the predictions. -/
theorem C31_poisson_likelihood {n : Nat} [NeZero n] (y : Fin n → ℕ) :
    ∃ c, ∀ p : Fin n → ℝ, (∀ i, 0 < p i) →
      ∃ ll, llPoisson (fun i => (y i : ℝ)) p = .fin ll ∧ n * ll = poissonLL y p + c := by
  refine ⟨∑ i, Real.log (y i).factorial, fun p hp => ⟨_, llPoisson_pos _ p hp, ?_⟩⟩
  have hn : (n : ℝ) ≠ 0 := by exact_mod_cast NeZero.ne n
  rw [poissonLL, Finset.sum_sub_distrib, mean]
  field_simp
  ring

/-- **C31**: no positive prediction beats the bound that the response itself attains. -/
theorem C31_truth_is_best {n : Nat} [NeZero n] (y p : Fin n → ℝ) (hy : ∀ i, 0 ≤ y i)
    (hp : ∀ i, 0 < p i) :
    ∃ ll best, llPoisson y p = .fin ll ∧ ll ≤ best ∧
      best = mean (fun i => y i * Real.log (y i) - y i) ∧
      ((∀ i, 0 < y i) → llPoisson y y = .fin best) := by
  refine ⟨_, _, llPoisson_pos y p hp, ?_, rfl, fun h => llPoisson_pos y y h⟩
  unfold mean
  exact div_le_div_of_nonneg_right (Finset.sum_le_sum fun i _ => pois_le (hy i) (hp i))
    (Nat.cast_nonneg n)

/-- **C31**: the all-zero prediction. -/
theorem C31_zero_prediction {n : Nat} (y p : Fin n → ℝ) (hp : ∀ i, p i = 0) :
    ((∀ i, y i = 0) → llPoisson y p = .fin 0) ∧ ((∃ i, y i ≠ 0) → llPoisson y p = .ninf) := by
  constructor
  · intro h
    rw [llPoisson, if_pos hp, if_neg (by push Not; exact h)]
  · intro h
    rw [llPoisson, if_pos hp, if_pos h]

/-- Two counts and two predictions. -/
example : ∃ ll best, llPoisson ![(2 : ℝ), 0] ![(1 : ℝ), 3] = .fin ll ∧ ll ≤ best := by
  obtain ⟨ll, best, h, hb, _⟩ := C31_truth_is_best ![(2 : ℝ), 0] ![(1 : ℝ), 3]
    (by intro i; fin_cases i <;> norm_num) (by intro i; fin_cases i <;> norm_num)
  exact ⟨ll, best, h, hb⟩

/-- **C31**: the name of the model selects the likelihood (that of C30 for `'normal'`, `+inf` for a perfect
    prediction, that of the theorems above for `'poisson'`), and every other name raises
    `ValueError`. -/
theorem C31_models {n : Nat} (y p : Fin n → ℝ) :
    ((∃ i, y i ≠ p i) → ∃ ll, llGlm "normal" y p = .ok (.fin ll) ∧
      IsGreatest {l | ∃ v > 0, l = gaussLL (fun i => y i - p i) v} (ll - n / 2 * Real.log (2 * Real.pi))) ∧
    ((∀ i, y i = p i) → llGlm "normal" y p = .ok .pinf) ∧
    (n ≠ 0 → (∀ i, 0 < p i) →
      llGlm "poisson" y p = .ok (.fin ((∑ i, (y i * Real.log (p i) - p i)) / n))) ∧
    ((∀ i, p i = 0) → (∃ i, y i ≠ 0) → llGlm "poisson" y p = .ok .ninf) ∧
    ∀ name, name ≠ "normal" → name ≠ "poisson" → llGlm name y p = .error .valueError := by
  refine ⟨fun h => ?_, fun h => ?_, fun hn h => ?_, fun h h' => ?_, fun name h1 h2 => ?_⟩
  · obtain ⟨ll, h1, h2⟩ := C30_profile_likelihood y p h
    exact ⟨ll, by rw [llGlm, if_pos rfl, h1], h2⟩
  · rw [llGlm, if_pos rfl, llNormal]
    simp [h, mean]
  · haveI : NeZero n := ⟨hn⟩
    rw [llGlm, if_neg (by decide), if_pos rfl, llPoisson_pos y p h]
    rfl
  · rw [llGlm, if_neg (by decide), if_pos rfl, (C31_zero_prediction y p h).2 h']
  · rw [llGlm, if_neg h1, if_neg h2]

example : llGlm "binomial" ![(1 : ℝ), 0] ![(1 : ℝ), 0] = .error .valueError :=
  (C31_models _ _).2.2.2.2 _ (by decide) (by decide)

/-! ### C35 -/

/-- **C35** is false: after constructing `k` estimators in a fresh process each record is written
    `k` times, so twice for two estimators. -/
theorem C35_negation (name : List Char) (rank size k : Nat) :
    copies (construct name rank size k fun _ => 0) (loggerName name rank size) = k := by
  rw [construct_copies, Nat.zero_add]

example : copies (construct "uoi_linear_model".toList 0 1 2 fun _ => 0) "uoi_linear_model".toList =
    2 := C35_negation "uoi_linear_model".toList 0 1 2

/-- **C35**, what holds: in a parallel run the logger names of different ranks are different and
    of equal length. -/
theorem C35_names_partial (name : List Char) (size : Nat) (hs : 1 < size) (r r' : Nat)
    (hr : r < size) (hr' : r' < size) :
    (loggerName name r size).length = (loggerName name r' size).length ∧
      (loggerName name r size = loggerName name r' size → r = r') := by
  have h1 := str_length_le hr
  have h2 := str_length_le hr'
  constructor
  · simp only [loggerName, gt_iff_lt, hs, if_true, rjust, List.length_append, List.length_cons,
      List.length_replicate]
    omega
  · intro h
    simp only [loggerName, gt_iff_lt, hs, if_true, List.append_cancel_left_eq, List.cons.injEq,
      true_and, rjust] at h
    apply str_inj
    have hf : ∀ (k q : Nat), (List.replicate k ' ' ++ str q).filter (· ≠ ' ') = str q := by
      intro k q
      rw [List.filter_append]
      have a : (List.replicate k ' ').filter (· ≠ ' ') = [] := by
        simp
      have b : (str q).filter (· ≠ ' ') = str q := by
        rw [List.filter_eq_self]
        intro c hc
        simp only [ne_eq, decide_not, Bool.not_eq_eq_eq_not, Bool.not_true, decide_eq_false_iff_not]
        rintro rfl
        exact str_noblank hc
      rw [a, b, List.nil_append]
    have := congrArg (List.filter (· ≠ ' ')) h
    rwa [hf, hf] at this

example : loggerName "uoi".toList 7 12 = "uoi  7".toList ∧
    loggerName "uoi".toList 11 12 = "uoi 11".toList := by
  constructor <;> decide

end Verif.Utils
