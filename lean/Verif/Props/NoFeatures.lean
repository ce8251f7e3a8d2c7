import Verif.Model.NoFeatures
import Verif.Props.Utils
import Verif.Props.Scaling
import Verif.Props.Logistic
/-!
Candidates without features (C115).
-/
namespace Verif.NoFeatures
open Verif.Py Verif.Utils Verif.Scores Verif.Scaling Verif.Logistic

variable {n m k : Nat}

/-- Sums of squares around a number are sums around the mean plus the squared distance. -/
theorem sum_sq_around [NeZero m] (z : Fin m → ℝ) (c : ℝ) :
    ∑ i, (z i - c) ^ 2 = ∑ i, (z i - Utils.mean z) ^ 2 + m * (Utils.mean z - c) ^ 2 := by
  have hm : (m : ℝ) ≠ 0 := by exact_mod_cast NeZero.ne m
  have hs : ∑ i, z i = m * Utils.mean z := by unfold Utils.mean; field_simp
  have h1 : ∀ d : ℝ, ∑ i, (z i - d) ^ 2 = ∑ i, z i ^ 2 - 2 * d * ∑ i, z i + m * d ^ 2 := by
    intro d
    have : ∀ i, (z i - d) ^ 2 = z i ^ 2 - 2 * d * z i + d ^ 2 := fun i => by ring
    simp only [this, Finset.sum_add_distrib, Finset.sum_sub_distrib, ← Finset.mul_sum, Finset.sum_const,
      Finset.card_univ, Fintype.card_fin, nsmul_eq_mul]
  rw [h1, h1, hs]
  ring

theorem sum_sq_pos (z : Fin m → ℝ) (hz : ∃ i i', z i ≠ z i') (c : ℝ) : 0 < ∑ i, (z i - c) ^ 2 := by
  obtain ⟨i, i', h⟩ := hz
  have : z i ≠ c ∨ z i' ≠ c := by
    by_contra hc
    push Not at hc
    exact h (hc.1.trans hc.2.symm)
  rcases this with h | h
  · exact Finset.sum_pos' (fun i _ => sq_nonneg _) ⟨i, Finset.mem_univ _, by
      have := sub_ne_zero.2 h; positivity⟩
  · exact Finset.sum_pos' (fun i _ => sq_nonneg _) ⟨i', Finset.mem_univ _, by
      have := sub_ne_zero.2 h; positivity⟩

/-- **C115 (linear, `r2`)**: on rows whose response is not constant the candidate without features never has
    a positive score; the score is zero exactly if the mean on those rows is that of the training rows. -/
theorem C115_r2 [NeZero m] (y : Fin n → ℝ) (z : Fin m → ℝ) (hz : ∃ i i', z i ≠ z i') :
    ∃ r, scoreLinEmpty "r2" y z = .ok (.fin r) ∧ r ≤ 0 ∧
      (r = 0 ↔ (∑ i, z i) / m = (∑ i, y i) / n) := by
  have hpos := sum_sq_pos z hz (Utils.mean z)
  have hm : (0 : ℝ) < m := by exact_mod_cast Nat.pos_of_ne_zero (NeZero.ne m)
  refine ⟨r2 z (linOnlyPredict y m), rfl, ?_, ?_⟩
  · unfold r2
    dsimp only
    rw [if_neg hpos.ne', sub_nonpos, le_div_iff₀ hpos, one_mul]
    show _ ≤ ∑ i, (z i - linOnly y) ^ 2
    rw [sum_sq_around z (linOnly y)]
    have : 0 ≤ (m : ℝ) * (Utils.mean z - linOnly y) ^ 2 := by positivity
    linarith
  · unfold r2
    dsimp only
    rw [if_neg hpos.ne', sub_eq_zero, eq_comm (a := (1 : ℝ)), div_eq_one_iff_eq hpos.ne']
    show ∑ i, (z i - linOnly y) ^ 2 = _ ↔ Utils.mean z = linOnly y
    rw [sum_sq_around z (linOnly y), add_eq_left]
    constructor
    · intro h
      rcases mul_eq_zero.1 h with h | h
      · exact absurd h hm.ne'
      · exact sub_eq_zero.1 (pow_eq_zero_iff (two_ne_zero) |>.1 h)
    · intro h; rw [h]; ring

/-- Trained on 1, 3 and tested on 2, 6: the score is 1 - 16/8 = -1. -/
example : scoreLinEmpty "r2" ![(1 : ℝ), 3] ![(2 : ℝ), 6] = .ok (.fin (-1)) := by
  have : r2 ![(2 : ℝ), 6] (linOnlyPredict ![(1 : ℝ), 3] 2) = -1 := by
    norm_num [r2, linOnlyPredict, linOnly, Utils.mean, Fin.sum_univ_two]
  show Except.ok (Ext.fin (r2 ![(2 : ℝ), 6] (linOnlyPredict ![(1 : ℝ), 3] 2))) = _
  rw [this]

/-- **C115 (linear, `r2`, constant response)**: on rows whose response has the one value `v`, the candidate
    without features has score one if the mean of the training rows is `v` and zero otherwise; no
    predictions have another score than these two there. -/
theorem C115_constant [NeZero m] (y : Fin n → ℝ) (z : Fin m → ℝ) (v : ℝ) (hz : ∀ i, z i = v) :
    scoreLinEmpty "r2" y z = .ok (.fin (if (∑ i, y i) / n = v then 1 else 0)) ∧
    ∀ p k, scoreLin "r2" z p k = .ok (.fin (if ∀ i, p i = v then 1 else 0)) := by
  have hm : (m : ℝ) ≠ 0 := by exact_mod_cast NeZero.ne m
  have hmean : Utils.mean z = v := by
    unfold Utils.mean
    simp only [hz, Finset.sum_const, Finset.card_univ, Fintype.card_fin, nsmul_eq_mul]
    field_simp
  have key : ∀ p : Fin m → ℝ, r2 z p = if ∀ i, p i = v then 1 else 0 := by
    intro p
    have h0 : ∑ i, (z i - Utils.mean z) ^ 2 = 0 := Finset.sum_eq_zero fun i _ => by rw [hz, hmean]; ring
    unfold r2
    dsimp only
    rw [if_pos h0]
    refine if_congr ?_ rfl rfl
    rw [Finset.sum_eq_zero_iff_of_nonneg fun i _ => sq_nonneg _]
    constructor
    · intro h i
      have := pow_eq_zero_iff (two_ne_zero) |>.1 (h i (Finset.mem_univ i))
      rw [hz] at this
      linarith
    · intro h i _
      rw [hz, h]; ring
  refine ⟨?_, fun p k => ?_⟩
  · show Except.ok (Ext.fin (r2 z (linOnlyPredict y m))) = _
    rw [key]
    refine congrArg _ (congrArg _ (if_congr ⟨fun h => h 0, fun h _ => h⟩ rfl rfl))
  · show Except.ok (Ext.fin (r2 z p)) = _
    rw [key]

/-- Trained on 1, 3 and tested on 2, 2: the score is one; tested on 5, 5 it is zero. -/
example : scoreLinEmpty "r2" ![(1 : ℝ), 3] ![(2 : ℝ), 2] = .ok (.fin 1) ∧
    scoreLinEmpty "r2" ![(1 : ℝ), 3] ![(5 : ℝ), 5] = .ok (.fin 0) := by
  constructor
  · rw [(C115_constant ![(1 : ℝ), 3] ![(2 : ℝ), 2] 2 (fun i => by fin_cases i <;> rfl)).1,
      if_pos (by norm_num [Fin.sum_univ_two])]
  · rw [(C115_constant ![(1 : ℝ), 3] ![(5 : ℝ), 5] 5 (fun i => by fin_cases i <;> rfl)).1,
      if_neg (by norm_num [Fin.sum_univ_two])]

/-- **C115 (linear, information criteria)**: on the training rows (the default for these) the candidate
    without features is the best of all constant predictions. -/
theorem C115_criteria [NeZero n] (y : Fin n → ℝ) (hy : ∃ i i', y i ≠ y i') (metric : String)
    (hm : metric = "BIC" ∨ metric = "AIC" ∨ metric = "AICc") :
    ∃ s, scoreLinEmpty metric y y = .ok (.fin s) ∧
      ∀ c, ∃ sc, scoreLin metric y (fun _ => c) 0 = .ok (.fin sc) ∧ sc ≤ s ∧
        (sc = s ↔ c = (∑ i, y i) / n) := by
  have hn : (0 : ℝ) < n := by exact_mod_cast Nat.pos_of_ne_zero (NeZero.ne n)
  have hpos : ∀ c, 0 < Utils.mean fun i => (y i - c) ^ 2 := fun c => div_pos (sum_sq_pos y hy c) hn
  have hll : ∀ c, llNormal y (fun _ => c) =
      .fin (-(n : ℝ) / 2 * (1 + Real.log (Utils.mean fun i => (y i - c) ^ 2))) := by
    intro c
    unfold llNormal
    dsimp only
    rw [if_neg (hpos c).ne']
  have hr2 : metric ≠ "r2" := by rcases hm with rfl | rfl | rfl <;> decide
  -- with no features every criterion is minus two log-likelihoods
  have hsc : ∀ c, scoreLin metric y (fun _ => c) 0 =
      .ok (.fin (2 * (-(n : ℝ) / 2 * (1 + Real.log (Utils.mean fun i => (y i - c) ^ 2))))) := by
    intro c
    unfold scoreLin
    rw [if_neg hr2, if_pos hm, hll]
    dsimp only
    rcases hm with rfl | rfl | rfl
    · simp [scoreLinear, BIC, Except.map]
    · simp [scoreLinear, AIC, Except.map]
    · simp [scoreLinear, AICc, AIC, Except.map]
  refine ⟨_, hsc (Utils.mean y), fun c => ⟨_, hsc c, ?_, ?_⟩⟩
  · have : (Utils.mean fun i => (y i - Utils.mean y) ^ 2) ≤ Utils.mean fun i => (y i - c) ^ 2 := by
      unfold Utils.mean
      refine div_le_div_of_nonneg_right ?_ hn.le
      have := sum_sq_around y c
      unfold Utils.mean at this
      rw [this]
      have : 0 ≤ (n : ℝ) * ((∑ i, y i) / n - c) ^ 2 := by positivity
      linarith
    have := Real.log_le_log (hpos _) this
    nlinarith
  · constructor
    · intro h
      have h1 : Real.log (Utils.mean fun i => (y i - c) ^ 2) =
          Real.log (Utils.mean fun i => (y i - Utils.mean y) ^ 2) := by
        have := mul_left_cancel₀ (two_ne_zero) h
        have := mul_left_cancel₀ (by
          have : -(n : ℝ) / 2 < 0 := by linarith
          exact this.ne) this
        linarith
      have h2 := Real.log_injOn_pos (hpos c) (hpos (Utils.mean y)) h1
      have h3 : ∑ i, (y i - c) ^ 2 = ∑ i, (y i - Utils.mean y) ^ 2 := by
        unfold Utils.mean at h2 ⊢
        have := mul_right_cancel₀ (inv_ne_zero hn.ne') h2
        exact this
      rw [sum_sq_around y c, add_eq_left] at h3
      rcases mul_eq_zero.1 h3 with h | h
      · exact absurd h hn.ne'
      · exact (sub_eq_zero.1 (pow_eq_zero_iff (two_ne_zero) |>.1 h)).symm
    · rintro rfl; rfl

example : ∃ s, scoreLinEmpty "BIC" ![(1 : ℝ), 3, 4] ![(1 : ℝ), 3, 4] = .ok (.fin s) ∧
    ∃ sc, scoreLin "BIC" ![(1 : ℝ), 3, 4] (fun _ => 2) 0 = .ok (.fin sc) ∧ sc ≤ s := by
  obtain ⟨s, h1, h2⟩ := C115_criteria ![(1 : ℝ), 3, 4] ⟨0, 1, by norm_num⟩ "BIC" (.inl rfl)
  obtain ⟨sc, h3, h4, -⟩ := h2 2
  exact ⟨s, h1, sc, h3, h4⟩

/-- **C115 (Poisson)**: with counts that are not all zero the candidate without features predicts the mean
    on the training rows, and on those rows no other constant has a larger log-likelihood. -/
theorem C115_poisson [NeZero n] (y : Fin n → ℝ) (hy : ∀ i, 0 ≤ y i) (h0 : ∃ i, y i ≠ 0) :
    poisOnlyMean y = (∑ i, y i) / n ∧ poisOnlyMode y = ⌊(∑ i, y i) / n⌋ ∧
    ∃ l, llPoisEmpty y y = .fin l ∧ ∀ mu, 0 < mu → ∃ lc, llPoisson y (fun _ => mu) = .fin lc ∧ lc ≤ l := by
  have hn : (0 : ℝ) < n := by exact_mod_cast Nat.pos_of_ne_zero (NeZero.ne n)
  have hmean : poisOnlyMean y = Utils.mean y := (C27_poisson_no_features y hy).1
  have hpos : 0 < Utils.mean y := mean_pos y hy h0
  refine ⟨hmean, by unfold poisOnlyMode; rw [hmean]; rfl, ?_⟩
  unfold llPoisEmpty
  rw [hmean]
  refine ⟨_, llPoisson_pos _ _ (fun _ => hpos), fun mu hmu => ⟨_, llPoisson_pos _ _ (fun _ => hmu), ?_⟩⟩
  have e : ∀ c : ℝ, (Utils.mean fun i => y i * Real.log c - c) = Utils.mean y * Real.log c - c := by
    intro c
    unfold Utils.mean
    rw [Finset.sum_sub_distrib, ← Finset.sum_mul, Finset.sum_const, Finset.card_univ, Fintype.card_fin,
      nsmul_eq_mul]
    field_simp
  rw [e, e]
  exact pois_le hpos.le hmu

/-- Counts 1, 0, 5: the mean 2 is predicted, and it is better than 3. -/
example : poisOnlyMean ![(1 : ℝ), 0, 5] = 2 := by
  rw [(C115_poisson ![(1 : ℝ), 0, 5] (by intro i; fin_cases i <;> norm_num) ⟨0, by norm_num⟩).1]
  norm_num [Fin.sum_univ_succ]

/-- C115 (Poisson).  `fitter.intercept_ != 0` decides whether the intercept counts as a parameter
    (`poisson.py:597-598`): it does, unless the mean of the training response is exactly one. -/
theorem C115_poisson_count [NeZero n] (y : Fin n → ℝ) (hy : ∀ i, 0 ≤ y i) :
    poisInterceptOnly y = ((0 : ℝ) : WithBot ℝ) ↔ (∑ i, y i) / n = 1 := by
  by_cases h0 : ∃ i, y i ≠ 0
  · have hpos : 0 < Utils.mean y := mean_pos y hy h0
    unfold poisInterceptOnly
    rw [if_pos h0, WithBot.coe_inj]
    show Real.log (Utils.mean y) = 0 ↔ Utils.mean y = 1
    rw [Real.log_eq_zero]
    constructor
    · rintro (h | h | h)
      · exact absurd h hpos.ne'
      · exact h
      · linarith
    · exact fun h => .inr (.inl h)
  · unfold poisInterceptOnly
    rw [if_neg h0]
    push Not at h0
    simp [h0]

/-- Counts 0 and 2: the mean is one, so no parameter is counted. -/
example : poisInterceptOnly ![(0 : ℝ), 2] = ((0 : ℝ) : WithBot ℝ) :=
  (C115_poisson_count ![(0 : ℝ), 2] (by intro i; fin_cases i <;> norm_num)).2 (by norm_num)

/-- Gibbs' inequality for counts. -/
theorem gibbs [NeZero n] (y : Fin n → Fin k) (hall : ∀ c, 0 < Spec.Logistic.count y c) (q : Fin k → ℝ)
    (hq : ∀ c, 0 < q c) (hsum : ∑ c, q c = 1) :
    ∑ i, Real.log (q (y i)) ≤ ∑ i, Real.log ((Spec.Logistic.count y (y i) : ℝ) / n) := by
  have hn : (0 : ℝ) < n := by exact_mod_cast Nat.pos_of_ne_zero (NeZero.ne n)
  have hgroup : ∀ f : Fin k → ℝ, ∑ i, f (y i) = ∑ c, (Spec.Logistic.count y c : ℝ) * f c := by
    intro f
    rw [← Finset.sum_fiberwise Finset.univ y]
    refine Finset.sum_congr rfl fun c _ => ?_
    rw [Finset.sum_congr rfl (g := fun _ => f c) (fun i hi => by rw [(Finset.mem_filter.1 hi).2]),
      Finset.sum_const, nsmul_eq_mul]
    rfl
  rw [hgroup (fun c => Real.log (q c)), hgroup (fun c => Real.log ((Spec.Logistic.count y c : ℝ) / n))]
  have hc : ∀ c, (0 : ℝ) < Spec.Logistic.count y c := fun c => by exact_mod_cast hall c
  have hterm : ∀ c, (Spec.Logistic.count y c : ℝ) * Real.log (q c) ≤
      Spec.Logistic.count y c * Real.log ((Spec.Logistic.count y c : ℝ) / n) +
        (n * q c - Spec.Logistic.count y c) := by
    intro c
    have h1 := Real.log_le_sub_one_of_pos (div_pos (hq c) (div_pos (hc c) hn))
    rw [Real.log_div (hq c).ne' (div_pos (hc c) hn).ne'] at h1
    have h2 := mul_le_mul_of_nonneg_left h1 (hc c).le
    have h3 : (Spec.Logistic.count y c : ℝ) * (q c / (Spec.Logistic.count y c / n) - 1) =
        n * q c - Spec.Logistic.count y c := by
      have := (hc c).ne'
      field_simp
    linarith
  have htot : ∑ c, (Spec.Logistic.count y c : ℝ) = n := by
    have := hgroup fun _ => 1
    simpa using this.symm
  calc _ ≤ ∑ c, ((Spec.Logistic.count y c : ℝ) * Real.log ((Spec.Logistic.count y c : ℝ) / n) +
        (n * q c - Spec.Logistic.count y c)) := Finset.sum_le_sum fun c _ => hterm c
    _ = _ := by
        rw [Finset.sum_add_distrib, Finset.sum_sub_distrib, ← Finset.mul_sum, hsum, htot]
        ring

/-- **C115 (several classes)**: on the training rows the candidate without features has the largest accuracy
    of all constant predictions, and, if every class occurs, the largest log-likelihood of all constant
    probability vectors. -/
theorem C115_multinomial [NeZero n] [NeZero k] (y : Fin n → Fin k) (hk : n + k < 10 ^ 10) :
    (∃ c, multiPredict y = .ok c ∧ ∀ c', accuracy y c' ≤ accuracy y c) ∧
    ((∀ c, ∃ i, y i = c) → ∀ q : Fin k → ℝ, (∀ c, 0 < q c) → ∑ c, q c = 1 →
      ∑ i, Real.log (q (y i)) ≤ ∑ i, Real.log (multiProba y (y i))) := by
  have hn : (0 : ℝ) < n := by exact_mod_cast Nat.pos_of_ne_zero (NeZero.ne n)
  obtain ⟨-, -, hfreq, c, hc, hmax⟩ := C48_multinomial y hk
  constructor
  · refine ⟨c, hc, fun c' => ?_⟩
    unfold accuracy
    refine div_le_div_of_nonneg_right ?_ hn.le
    have hcount : ∀ d : Fin k, (Finset.univ.filter fun i => (y i).val = d.val) =
        Finset.univ.filter fun i => y i = d := fun d => by
      ext i; simp [Fin.ext_iff]
    rw [hcount c]
    by_cases hlt : c' < k
    · have h1 := hcount ⟨c', hlt⟩
      have h2 := hmax ⟨c', hlt⟩
      unfold Spec.Logistic.count at h2
      dsimp only at h1
      rw [h1]
      exact_mod_cast h2
    · have : (Finset.univ.filter fun i => (y i).val = c') = ∅ := by
        ext i
        simp only [Finset.mem_filter, Finset.mem_univ, true_and, Finset.notMem_empty, iff_false]
        have := (y i).2
        omega
      rw [this]
      simp
  · intro hall q hq hsum
    have hall' : ∀ c, 0 < Spec.Logistic.count y c := fun c => by
      obtain ⟨i, hi⟩ := hall c
      exact Finset.card_pos.2 ⟨i, by simp [hi]⟩
    have := gibbs y hall' q hq hsum
    simpa only [hfreq hall'] using this

/-- Three classes with frequencies 1/4, 1/2, 1/4. -/
example : (∃ c, multiPredict ![(0 : Fin 3), 1, 1, 2] = .ok c ∧
    ∀ c', accuracy ![(0 : Fin 3), 1, 1, 2] c' ≤ accuracy ![(0 : Fin 3), 1, 1, 2] c) ∧
    ∀ c : Fin 3, ∃ i, ![(0 : Fin 3), 1, 1, 2] i = c :=
  ⟨(C115_multinomial ![(0 : Fin 3), 1, 1, 2] (by norm_num)).1, by decide⟩

/-- **C115 (two classes)**: the same for the binary model, whose predicted probability is that of class
    one. -/
theorem C115_binary [NeZero n] (y : Fin n → Fin 2) (hn10 : n ≤ 10 ^ 10) :
    (∀ c', accuracy y c' ≤ accuracy y (binPredict y)) ∧
    ((∀ c, ∃ i, y i = c) → ∀ q : ℝ, 0 < q → q < 1 →
      ∑ i, Real.log (if y i = 1 then q else 1 - q) ≤
        ∑ i, Real.log (if y i = 1 then binProba y else 1 - binProba y)) := by
  have hn : (0 : ℝ) < n := by exact_mod_cast Nat.pos_of_ne_zero (NeZero.ne n)
  obtain ⟨-, -, hfreq, c, hc, hmax⟩ := C48_binary y
  constructor
  · intro c'
    rw [hc]
    unfold accuracy
    refine div_le_div_of_nonneg_right ?_ hn.le
    have hcount : ∀ d : Fin 2, (Finset.univ.filter fun i => (y i).val = d.val) =
        Finset.univ.filter fun i => y i = d := fun d => by
      ext i; simp [Fin.ext_iff]
    rw [hcount c]
    by_cases hlt : c' < 2
    · have h1 := hcount ⟨c', hlt⟩
      have h2 := hmax ⟨c', hlt⟩
      unfold Spec.Logistic.count at h2
      dsimp only at h1
      rw [h1]
      exact_mod_cast h2
    · have : (Finset.univ.filter fun i => (y i).val = c') = ∅ := by
        ext i
        simp only [Finset.mem_filter, Finset.mem_univ, true_and, Finset.notMem_empty, iff_false]
        have := (y i).2
        omega
      rw [this]
      simp
  · intro hall q h0 h1
    have hall' : ∀ c, 0 < Spec.Logistic.count y c := fun c => by
      obtain ⟨i, hi⟩ := hall c
      exact Finset.card_pos.2 ⟨i, by simp [hi]⟩
    have hp := hfreq hn10 (hall' 0) (hall' 1)
    have htot := Verif.Logistic.count_two y
    have hg := gibbs y hall' ![1 - q, q] (by
      intro c; fin_cases c
      · show 0 < 1 - q; linarith
      · show 0 < q; exact h0) (by simp [Fin.sum_univ_two])
    have e1 : ∀ i, (![1 - q, q] : Fin 2 → ℝ) (y i) = if y i = 1 then q else 1 - q := by
      intro i
      rcases Fin.exists_fin_two.1 ⟨y i, rfl⟩ with h | h <;> rw [h] <;> simp
    have e2 : ∀ i, (Spec.Logistic.count y (y i) : ℝ) / n = if y i = 1 then binProba y else 1 - binProba y := by
      intro i
      rw [hp]
      rcases Fin.exists_fin_two.1 ⟨y i, rfl⟩ with h | h <;> rw [h]
      · rw [if_neg (by decide)]
        field_simp
        linarith
      · rw [if_pos rfl]
    simpa only [e1, e2] using hg

example : (∀ c, ∃ i, ![(0 : Fin 2), 1, 1] i = c) ∧
    ∀ c', accuracy ![(0 : Fin 2), 1, 1] c' ≤ accuracy ![(0 : Fin 2), 1, 1] (binPredict ![(0 : Fin 2), 1, 1]) :=
  ⟨by decide, (C115_binary ![(0 : Fin 2), 1, 1] (by norm_num)).1⟩

/-- C115 is false with `fit_intercept=False`: the candidate without features is scored as if it had an
    intercept.  Here it scores zero and wins over the feature `x`, but the model that is then returned
    predicts zero and is worse than the least-squares model with `x`. -/
theorem C115_negation : ∃ (y x : Fin 3 → ℝ) (beta : ℝ) (empty feature returned : ℝ),
    (∀ b, ∑ i, (y i - x i * beta) ^ 2 ≤ ∑ i, (y i - x i * b) ^ 2) ∧
    scoreLinEmpty "r2" y y = .ok (.fin empty) ∧
    scoreLin "r2" y (fun i => x i * beta + linIntercept false (fun i (_ : Fin 1) => x i) y fun _ => beta) 1 =
      .ok (.fin feature) ∧
    scoreLin "r2" y (fun i => x i * 0 + linIntercept false (fun i (_ : Fin 1) => x i) y fun _ => 0) 0 =
      .ok (.fin returned) ∧
    feature < empty ∧ returned < feature := by
  have e1 : (![3, 4, 5] : Fin 3 → ℝ) 2 = 5 := rfl
  have e2 : (![1, 1, 0] : Fin 3 → ℝ) 2 = 0 := rfl
  refine ⟨![3, 4, 5], ![1, 1, 0], 7 / 2, _, _, _, fun b => ?_, rfl, rfl, rfl, ?_, ?_⟩
  · norm_num [Fin.sum_univ_three, e1, e2]
    nlinarith [sq_nonneg (b - 7 / 2)]
  · norm_num [r2, linOnlyPredict, linOnly, Utils.mean, Fin.sum_univ_three, e1, e2, linIntercept]
  · norm_num [r2, Utils.mean, Fin.sum_univ_three, e1, e2, linIntercept]

end Verif.NoFeatures
