import Verif.Model.Logistic
import Verif.Spec.Logistic
import Verif.Lemmas.Grid
import Verif.Lemmas.Utils
import Verif.Lemmas.Reduce
import Mathlib.Analysis.SpecialFunctions.ExpDeriv
import Mathlib.Analysis.SpecialFunctions.Log.Deriv
import Mathlib.Analysis.Calculus.Deriv.Pow
import Verif.Lemmas.Logistic
/-!
C46-C50, C76: the logistic regression.
-/
namespace Verif.Logistic
open Verif.Py Verif.Utils Verif.Spec.Grid Verif.Spec.Logistic
variable {n p k : Nat}

/-! ### C46 -/

/-- **C46 (binary)**: the loss supplied to the solver is the penalised logistic loss of the masked
    coefficients (`y` holds signs). -/
theorem C46_binary_value (X : Fin n → Fin p → ℝ) (y : Fin n → ℝ) (alpha : ℝ)
    (mask : Option (Fin p → ℝ)) (sw : Fin n → ℝ) (w : Fin p → ℝ) (b : Option ℝ) :
    (binLossGrad X y alpha mask sw w b).1 = binObj X y sw alpha (b.getD 0) (applyMask mask w) :=
  bin_value X y alpha mask sw w b

/-- **C46 (binary)**: the loss is differentiable and the returned gradient is its gradient; masked
    entries are zero. -/
theorem C46_binary_gradient (X : Fin n → Fin p → ℝ) (y : Fin n → ℝ) (alpha : ℝ)
    (mask : Option (Fin p → ℝ)) (sw : Fin n → ℝ) (w : Fin p → ℝ) (b : ℝ) :
    Differentiable ℝ (fun q : (Fin p → ℝ) × ℝ => (binLossGrad X y alpha mask sw q.1 (some q.2)).1) ∧
    (∃ g, (binLossGrad X y alpha mask sw w (some b)).2.2 = some g ∧ ∀ (d : Fin p → ℝ) (e : ℝ),
      HasDerivAt (fun t : ℝ => (binLossGrad X y alpha mask sw (fun j => w j + t * d j)
        (some (b + t * e))).1)
        (∑ j, (binLossGrad X y alpha mask sw w (some b)).2.1 j * d j + g * e) 0) ∧
    ∀ m j, mask = some m → m j = 0 → (binLossGrad X y alpha mask sw w (some b)).2.1 j = 0 := by
  refine ⟨?_, ⟨_, rfl, fun d e => ?_⟩, ?_⟩
  · simp only [bin_value, Option.getD_some]
    refine (bin_differentiable X y sw alpha).comp (g := fun q : (Fin p → ℝ) × ℝ => _)
      (f := fun q : (Fin p → ℝ) × ℝ => (applyMask mask q.1, q.2)) ?_
    refine Differentiable.prodMk ?_ (by fun_prop)
    rw [differentiable_pi]
    intro j
    simp only [applyMask_eq]
    fun_prop
  · simp only [bin_value, Option.getD_some]
    have h := bin_line X y sw alpha b e (applyMask mask w) (applyMask mask d)
    have h1 : ∀ t : ℝ, applyMask mask (fun j => w j + t * d j) =
        fun j => applyMask mask w j + t * applyMask mask d j := by
      intro t; funext j; simp only [applyMask_eq]; ring
    simp only [h1]
    refine h.congr_deriv ?_
    simp only [applyMask_eq mask d]
    rw [bin_dir]
    simp only [binLossGrad, Option.getD_some]
    congr 1
    · refine Finset.sum_congr rfl fun j _ => ?_
      rw [applyMask_mul]
      simp only [add_comm b, mul_assoc]
    · simp only [add_comm b, mul_assoc]
  · intro m j hm h0
    subst hm
    simp only [binLossGrad, applyMask, h0, mul_zero]

/-- **C46 (binary)** without an intercept. -/
theorem C46_binary_gradient_no_intercept (X : Fin n → Fin p → ℝ) (y : Fin n → ℝ) (alpha : ℝ)
    (mask : Option (Fin p → ℝ)) (sw : Fin n → ℝ) (w : Fin p → ℝ) :
    (∀ d : Fin p → ℝ,
      HasDerivAt (fun t : ℝ => (binLossGrad X y alpha mask sw (fun j => w j + t * d j) none).1)
        (∑ j, (binLossGrad X y alpha mask sw w none).2.1 j * d j) 0) ∧
    ∀ m j, mask = some m → m j = 0 → (binLossGrad X y alpha mask sw w none).2.1 j = 0 := by
  constructor
  · intro d
    obtain ⟨g, -, h⟩ := (C46_binary_gradient X y alpha mask sw w 0).2.1
    have := h d 0
    simp only [mul_zero, add_zero] at this
    exact this
  · exact (C46_binary_gradient X y alpha mask sw w 0).2.2

/-- Two features, the first masked out. -/
example : (binLossGrad ![![1, 2]] ![1] 0 (some ![0, 1]) ![1] ![5, 0] (some 0)).2.1 =
    ![0, -1] := by
  funext j
  fin_cases j
  · exact (C46_binary_gradient _ _ _ _ _ _ _).2.2 _ 0 rfl rfl
  · simp [binLossGrad, applyMask, expit]; norm_num

/-! Multinomial -/

/-- **C46 (multinomial)**: the loss supplied to the solver is the penalised multinomial loss of the
    masked coefficients, for label rows that sum to one. -/
theorem C46_multinomial_value (X : Fin n → Fin p → ℝ) (Y : Fin n → Fin k → ℝ)
    (hY : ∀ i, ∑ c, Y i c = 1)
    (alpha : ℝ) (mask : Option (Fin k → Fin p → ℝ)) (sw : Fin n → ℝ) (W : Fin k → Fin p → ℝ)
    (B : Option (Fin k → ℝ)) :
    (multiLossGrad X Y alpha mask sw W B).1 =
      multiObj X Y sw alpha (B.getD fun _ => 0) (applyMaskM mask W) :=
  multi_value X Y hY alpha mask sw W B

/-- **C46 (multinomial)**: the gradient is the gradient; masked entries are zero. -/
theorem C46_multinomial_gradient [NeZero k] (X : Fin n → Fin p → ℝ) (Y : Fin n → Fin k → ℝ)
    (hY : ∀ i, ∑ c, Y i c = 1) (alpha : ℝ) (mask : Option (Fin k → Fin p → ℝ)) (sw : Fin n → ℝ)
    (W : Fin k → Fin p → ℝ) (B : Fin k → ℝ) :
    Differentiable ℝ (fun q : (Fin k → Fin p → ℝ) × (Fin k → ℝ) =>
      (multiLossGrad X Y alpha mask sw q.1 (some q.2)).1) ∧
    (∃ g, (multiLossGrad X Y alpha mask sw W (some B)).2.2 = some g ∧
      ∀ (D : Fin k → Fin p → ℝ) (E : Fin k → ℝ),
      HasDerivAt (fun t : ℝ => (multiLossGrad X Y alpha mask sw (fun c j => W c j + t * D c j)
        (some fun c => B c + t * E c)).1)
        (∑ c, ∑ j, (multiLossGrad X Y alpha mask sw W (some B)).2.1 c j * D c j +
          ∑ c, g c * E c) 0) ∧
    ∀ M c j, mask = some M → M c j = 0 →
      (multiLossGrad X Y alpha mask sw W (some B)).2.1 c j = 0 := by
  refine ⟨?_, ⟨_, rfl, fun D E => ?_⟩, ?_⟩
  · simp only [multi_value X Y hY, Option.getD_some]
    refine (multi_differentiable X Y sw alpha).comp
      (g := fun q : (Fin k → Fin p → ℝ) × (Fin k → ℝ) => _)
      (f := fun q : (Fin k → Fin p → ℝ) × (Fin k → ℝ) => (applyMaskM mask q.1, q.2)) ?_
    refine Differentiable.prodMk ?_ (by fun_prop)
    rw [differentiable_pi]
    intro c
    rw [differentiable_pi]
    intro j
    simp only [applyMaskM_eq]
    fun_prop
  · simp only [multi_value X Y hY, Option.getD_some]
    have h := multi_line X Y sw alpha B E (applyMaskM mask W) (applyMaskM mask D)
    have h1 : ∀ t : ℝ, applyMaskM mask (fun c j => W c j + t * D c j) =
        fun c j => applyMaskM mask W c j + t * applyMaskM mask D c j := by
      intro t; funext c j; simp only [applyMaskM_eq]; ring
    simp only [h1]
    refine h.congr_deriv ?_
    simp only [applyMaskM_eq mask D]
    have h2 : ∀ (i : Fin n) (f g : Fin k → ℝ), sw i * ∑ c, f c * g c = ∑ c, sw i * f c * g c := by
      intro i f g; rw [Finset.mul_sum]; exact Finset.sum_congr rfl fun c _ => by ring
    rw [Finset.sum_congr rfl fun i _ => h2 i _ _, multi_dir]
    simp only [multiLossGrad, Option.getD_some]
    congr 1
    · refine Finset.sum_congr rfl fun c _ => Finset.sum_congr rfl fun j _ => ?_
      rw [applyMaskM_mul]
      simp only [add_comm (B _)]
    · simp only [add_comm (B _)]
  · intro m c j hm h0
    subst hm
    simp only [multiLossGrad, applyMaskM, h0, mul_zero]

/-- **C46 (multinomial)** without intercepts. -/
theorem C46_multinomial_gradient_no_intercept [NeZero k] (X : Fin n → Fin p → ℝ)
    (Y : Fin n → Fin k → ℝ) (hY : ∀ i, ∑ c, Y i c = 1) (alpha : ℝ)
    (mask : Option (Fin k → Fin p → ℝ)) (sw : Fin n → ℝ) (W : Fin k → Fin p → ℝ) :
    (∀ D : Fin k → Fin p → ℝ,
      HasDerivAt (fun t : ℝ => (multiLossGrad X Y alpha mask sw (fun c j => W c j + t * D c j)
        none).1) (∑ c, ∑ j, (multiLossGrad X Y alpha mask sw W none).2.1 c j * D c j) 0) ∧
    ∀ M c j, mask = some M → M c j = 0 → (multiLossGrad X Y alpha mask sw W none).2.1 c j = 0 := by
  constructor
  · intro D
    obtain ⟨g, -, h⟩ := (C46_multinomial_gradient X Y hY alpha mask sw W (fun _ => 0)).2.1
    have := h D (fun _ => 0)
    simp only [mul_zero, add_zero, Finset.sum_const_zero] at this
    exact this
  · exact (C46_multinomial_gradient X Y hY alpha mask sw W (fun _ => 0)).2.2

/-- One-hot rows sum to one. -/
example : ∀ i, ∑ c, oneHot ![(0 : Fin 3), 2, 1] i c = 1 := fun i => by simp [oneHot]

/-! Flat vectors -/

/-- **C46**: regrouping the vector by feature for OWL-QN keeps value and gradient consistent. -/
theorem C46_regrouped (k q : Nat) (inner : (Nat → ℝ) → ℝ × (Nat → ℝ))
    (h : Consistent (k * q) inner) : Consistent (q * k) (multiL1Func k q inner) := by
  intro x d
  have h1 := h (ravel q (transpose (reshape k x))) (ravel q (transpose (reshape k d)))
  have h2 : ∀ t : ℝ, (fun i => ravel q (transpose (reshape k x)) i +
      t * ravel q (transpose (reshape k d)) i) =
      ravel q (transpose (reshape k fun i => x i + t * d i)) := by
    intro t; funext i; rfl
  simp only [h2] at h1
  refine h1.congr_deriv ?_
  rw [sum_range_mul, sum_range_mul, Finset.sum_comm]
  refine Finset.sum_congr rfl fun j hj => Finset.sum_congr rfl fun c hc => ?_
  rw [Finset.mem_range] at hj hc
  have e1 : ravel q (transpose (reshape k d)) (c * q + j) = d (j * k + c) :=
    reshape_ravel q (transpose (reshape k d)) c hj
  have e2 : (multiL1Func k q inner x).2 (j * k + c) =
      (inner (ravel q (transpose (reshape k x)))).2 (c * q + j) :=
    reshape_ravel k (transpose (reshape q (inner (ravel q (transpose (reshape k x)))).2)) j hc
  rw [e1, e2]

/-- **C46**: restricting the vector to the unmasked entries keeps value and gradient consistent. -/
theorem C46_restricted (N : Nat) (idx : List Nat) (hn : idx.Nodup) (hlt : ∀ i ∈ idx, i < N)
    (inner : (Nat → ℝ) → ℝ × (Nat → ℝ)) (h : Consistent N inner) :
    Consistent idx.length (maskedL2Func idx inner) := by
  intro x d
  have h1 := h (scatter idx x) (scatter idx d)
  have h2 : ∀ t : ℝ, (fun i => scatter idx x i + t * scatter idx d i) =
      scatter idx fun i => x i + t * d i := by
    intro t; funext i; simp only [scatter]; split_ifs <;> simp
  simp only [h2] at h1
  refine h1.congr_deriv ?_
  have h3 : ∑ i ∈ Finset.range N, (inner (scatter idx x)).2 i * scatter idx d i =
      ∑ i ∈ idx.toFinset, (inner (scatter idx x)).2 i * d (idx.idxOf i) := by
    rw [← Finset.sum_subset (s₁ := idx.toFinset)]
    · refine Finset.sum_congr rfl fun i hi => ?_
      rw [scatter, if_pos (by simpa using hi)]
    · intro i hi
      exact Finset.mem_range.2 (hlt i (by simpa using hi))
    · intro i _ hi
      rw [scatter, if_neg (by simpa using hi), mul_zero]
  rw [h3]
  symm
  refine Finset.sum_bij (fun l _ => idx.getD l 0) ?_ ?_ ?_ ?_
  · intro l hl
    rw [Finset.mem_range] at hl
    rw [getD_lt hl]
    simp
  · intro l hl l' hl' he
    rw [Finset.mem_range] at hl hl'
    rw [← idxOf_getD hn hl, ← idxOf_getD hn hl', he]
  · intro i hi
    have hi' : i ∈ idx := by simpa using hi
    have hlt := List.idxOf_lt_length_iff.2 hi'
    exact ⟨idx.idxOf i, Finset.mem_range.2 hlt, by
      rw [getD_lt hlt]; exact List.getElem_idxOf hlt⟩
  · intro l hl
    rw [Finset.mem_range] at hl
    rw [idxOf_getD hn hl]
    rfl

/-- A consistent pair on four entries. -/
example : Consistent (2 * 2) fun x => (∑ i ∈ Finset.range 4, (3 : ℝ) * x i, fun _ => (3 : ℝ)) := by
  intro x d
  have : HasDerivAt (fun t : ℝ => ∑ i ∈ Finset.range 4, (3 : ℝ) * (x i + t * d i))
      (∑ i ∈ Finset.range 4, 3 * d i) 0 := by
    refine HasDerivAt.fun_sum fun i _ => ?_
    simpa using (((hasDerivAt_id (0 : ℝ)).mul_const (d i)).const_add (x i)).const_mul (3 : ℝ)
  exact this

/-! ### C47 -/

/-- **C47 (no L1 penalty; the estimation fits)**: whatever the optimiser returns, the coefficients
    outside the mask are exactly zero: binary or multinomial, with or without intercept, warm or cold
    start, and also when the mask excludes everything. -/
theorem C47_masked_zero (a : PathArgs) (opt : Optimisers) (hl : a.l1 = false) (m : Nat → Nat → ℝ)
    (hm : a.mask = some m) (c j : Nat) (hj : j < a.p) (h : m c j = 0) :
    fitCoef a opt c j = 0 := by
  have hjc := lt_cols hj
  unfold fitCoef path
  rw [if_pos hj]
  simp only [hl, hm, Bool.false_eq_true, and_false, if_false]
  split_ifs
  · have hnot : c * a.cols + j ∉ maskIdx a m := by
      unfold maskIdx
      simp only [List.mem_filter, decide_eq_true_eq, not_and, not_not]
      intro _
      have := reshape_ravel a.cols (fun c j => if j < a.p then m c j else 1) c hjc
      simp only [reshape, if_pos hj] at this
      rw [this, h]
    simp [reshape, scatter, hnot]
  · rw [reshape_ravel _ _ _ hjc]
    exact startPoint_masked hm hj h

/-- **C47 (L1 penalty, partial)**: at the start of the optimisation the masked coefficients are zero,
    and they are zero in the result when the all-zero solution is reported or the mask excludes
    everything.  Missing: the point an arbitrary optimiser returns. -/
theorem C47_l1_partial (a : PathArgs) (opt : Optimisers) (hl : a.l1 = true) (m : Nat → Nat → ℝ)
    (hm : a.mask = some m) (c j : Nat) (hc : c < a.rows)
    (hj : j < a.p) (h : m c j = 0)
    (hz : (∀ x, opt.l1 x = .allZero) ∨ maskSum a m = 0) : fitCoef a opt c j = 0 := by
  have hjc := lt_cols hj
  have hs := startPoint_masked hm hj h
  unfold fitCoef path
  rw [if_pos hj]
  cases hmu : a.multi with
  | false =>
    simp only [hl, hm, Bool.false_eq_true, false_and, if_false, if_true]
    rcases hz with hz | hz
    · simp only [hz, reshape]
      split_ifs
      · simp
      · exact (reshape_ravel _ _ _ hjc).trans hs
    · rw [if_neg (by simpa using hz)]
      exact (reshape_ravel _ _ _ hjc).trans hs
  | true =>
    have hck : c < a.k := by simpa [PathArgs.rows, hmu] using hc
    simp only [hl, hm, and_self, if_true]
    rcases hz with hz | hz
    · simp only [hz]
      split_ifs
      · simp [transpose, reshape]
      · exact (reshape_ravel_T _ _ _ hck).trans hs
    · rw [if_neg (by simpa using hz)]
      exact (reshape_ravel_T _ _ _ hck).trans hs

/-- A multinomial problem with three classes and two features, the second excluded for class one, and
    an optimiser that returns fives. -/
example : fitCoef ⟨true, false, true, 3, 2, some (fun c j => if c = 1 ∧ j = 1 then 0 else 1), none,
      fun _ => 0⟩ ⟨fun _ _ => 5, fun _ _ _ => 5, fun _ => .allZero⟩ 1 1 = 0 :=
  C47_masked_zero _ _ rfl _ rfl 1 1 (by decide) (by simp)

/-! ### C48 -/

/-- **C48 (binary)**: the probability of class one is strictly between zero and one, equals the
    frequency of ones when both classes occur (up to `10^10` samples, where the clipping at `1e-10`
    does nothing), and the predicted class is a most frequent one. -/
theorem C48_binary [NeZero n] (y : Fin n → Fin 2) :
    0 < binProba y ∧ binProba y < 1 ∧
    (n ≤ 10 ^ 10 → 0 < count y 0 → 0 < count y 1 → binProba y = count y 1 / n) ∧
    (∃ c : Fin 2, binPredict y = c ∧ ∀ c', count y c' ≤ count y c) := by
  have hn : (0 : ℝ) < n := by exact_mod_cast Nat.pos_of_ne_zero (NeZero.ne n)
  have he : (0 : ℝ) < epsI := by unfold epsI; positivity
  have he1 : epsI < 1 / 2 := by unfold epsI; norm_num
  have hmean : mean (fun i => ((y i : ℕ) : ℝ)) = count y 1 / n := by rw [mean, sum_label]
  have hb := clip_bounds (count y 1 / n)
  have hp : binProba y = min (max ((count y 1 : ℝ) / n) epsI) (1 - epsI) := by
    unfold binProba binIntercept
    simp only [hmean]
    exact sigmoid_logit hb.1 hb.2
  refine ⟨hp ▸ hb.1, hp ▸ hb.2, ?_, ?_⟩
  · exact binProba_freq y
  · have hge : binIntercept y ≥ 0 ↔ (1 : ℝ) / 2 ≤ count y 1 / n := by
      unfold binIntercept
      simp only [hmean]
      set q := min (max ((count y 1 : ℝ) / n) epsI) (1 - epsI) with hq
      have hq1 : 0 < 1 - q := by linarith [hb.2]
      rw [ge_iff_le, Real.log_nonneg_iff (div_pos hb.1 hq1), le_div_iff₀ hq1]
      have : (1 * (1 - q) ≤ q) ↔ 1 / 2 ≤ q := by
        constructor <;> intro h <;> linarith
      rw [this, hq, le_min_iff, le_max_iff]
      constructor
      · rintro ⟨h | h, -⟩
        · exact h
        · linarith
      · intro h; exact ⟨.inl h, by linarith⟩
    have hct := count_two y
    unfold binPredict
    split_ifs with h
    · refine ⟨1, rfl, fun c' => ?_⟩
      rw [hge, le_div_iff₀ hn] at h
      rcases Fin.exists_fin_two.1 ⟨c', rfl⟩ with h' | h' <;> rw [h']
      · have : (count y 0 : ℝ) ≤ count y 1 := by linarith
        exact_mod_cast this
    · refine ⟨0, rfl, fun c' => ?_⟩
      rw [hge, not_le, div_lt_iff₀ hn] at h
      rcases Fin.exists_fin_two.1 ⟨c', rfl⟩ with h' | h' <;> rw [h']
      · have : (count y 1 : ℝ) ≤ count y 0 := by linarith
        exact_mod_cast this

example : 0 < count ![(0 : Fin 2), 1, 1] 0 ∧ 0 < count ![(0 : Fin 2), 1, 1] 1 := by decide

/-- **C48 (multinomial)**: the probabilities are positive and sum to one, equal the class frequencies
    when every class occurs, and the predicted class is a most frequent one.  (The bound says that the
    mass of `1e-10` given to a class that does not occur is less than that of one sample.) -/
theorem C48_multinomial [NeZero n] [NeZero k] (y : Fin n → Fin k) (hk : n + k < 10 ^ 10) :
    (∀ c, 0 < multiProba y c) ∧ ∑ c, multiProba y c = 1 ∧
    ((∀ c, 0 < count y c) → ∀ c, multiProba y c = count y c / n) ∧
    (∃ c : Fin k, multiPredict y = .ok c ∧ ∀ c', count y c' ≤ count y c) := by
  have hn : (0 : ℝ) < n := by exact_mod_cast Nat.pos_of_ne_zero (NeZero.ne n)
  obtain ⟨hpos, hsum, hmono, hall⟩ := adj_facts y hk
  refine ⟨fun c => ?_, ?_, ?_, ?_⟩
  · rw [multiProba_eq y hk]; exact hpos c
  · simp only [multiProba_eq y hk]; exact hsum
  · intro h c
    rw [multiProba_eq y hk, hall h c, freq_eq]
  · have hne : List.ofFn (multiIntercept y) ≠ [] := by
      intro h
      have := congrArg List.length h
      simp at this
      exact NeZero.ne k this
    obtain ⟨i, hi⟩ : ∃ i, argmax (List.ofFn (multiIntercept y)) = .ok i := by
      cases hh : List.ofFn (multiIntercept y) with
      | nil => exact absurd hh hne
      | cons a as => exact ⟨_, rfl⟩
    obtain ⟨x, hx, hmax⟩ := argmax_spec hi
    have hik : i < k := by
      have := (List.getElem?_eq_some_iff.1 hx).1
      simpa using this
    refine ⟨⟨i, hik⟩, hi, fun c' => ?_⟩
    have hxi : x = multiIntercept y ⟨i, hik⟩ := by
      rw [List.getElem?_ofFn] at hx
      simp only [hik, dif_pos] at hx
      exact (Option.some.inj hx).symm
    have h1 := (hmax c'.val (multiIntercept y c') (by simp)).1
    rw [hxi] at h1
    have h2 : adjFreq y c' ≤ adjFreq y ⟨i, hik⟩ := by
      have : Real.log (adjFreq y c') ≤ Real.log (adjFreq y ⟨i, hik⟩) := by
        unfold multiIntercept at h1; linarith
      exact (Real.log_le_log_iff (hpos _) (hpos _)).1 this
    have h3 := hmono _ _ h2
    rw [freq_eq, freq_eq, div_le_div_iff_of_pos_right hn] at h3
    exact_mod_cast h3

/-- Three classes, one of which does not occur. -/
example : (4 : ℕ) + 3 < 10 ^ 10 ∧ count ![(0 : Fin 3), 2, 2, 0] 1 = 0 := by decide

/-! ### C50 -/

/-- **C50 (partial)**: with an intercept, a run stops at the all-zero solution only at the second of
    two consecutive reports in which every penalised coefficient is zero.  `N` is the number of
    penalised entries, which come first; the intercept is the last entry, or the last group of `k`.
    Missing: fits without an intercept, where it is false (see the negation). -/
theorem C50_partial (multi : Bool) (k N : Nat) (xs : List (List ℝ))
    (hlen : ∀ x ∈ xs, x.length = N + (if multi then k else 1)) (t : Nat)
    (h : zeroRun multi k 0 xs = some t) :
    ∃ x x', 0 < t ∧ xs[t]? = some x ∧ xs[t - 1]? = some x' ∧
      ∀ i < N, x[i]? = some 0 ∧ x'[i]? = some 0 := by
  obtain ⟨x, hx, hz, hm⟩ := zeroRun_some h
  cases t with
  | zero => simp at hm
  | succ t =>
    obtain ⟨x', hx', hz'⟩ := hm
    have key : ∀ z ∈ xs, (∀ v ∈ zeroCoefPart multi k z, v = 0) → ∀ i < N, z[i]? = some 0 := by
      intro z hzm hzz i hi
      have hl := hlen z hzm
      have hlt : i < z.length := by omega
      have h1 : z[i]? = some z[i] := List.getElem?_eq_getElem hlt
      rw [h1, hzz _ (mem_part h1 hl hi)]
    exact ⟨x, x', by omega, hx, hx', fun i hi =>
      ⟨key x (List.mem_of_getElem? hx) hz i hi, key x' (List.mem_of_getElem? hx') hz' i hi⟩⟩

/-- **C50**: conversely two consecutive reports of zeros do stop it (at the latest at the second). -/
theorem C50_stops (multi : Bool) (k : Nat) (xs : List (List ℝ)) (t : Nat) (x x' : List ℝ)
    (hx : xs[t]? = some x) (hx' : xs[t + 1]? = some x')
    (hz : ∀ v ∈ zeroCoefPart multi k x, v = 0) (hz' : ∀ v ∈ zeroCoefPart multi k x', v = 0)
    (seen : Nat) : ∃ s ≤ t + 1, zeroRun multi k seen xs = some s := by
  induction t generalizing xs seen with
  | zero =>
    cases xs with
    | nil => cases hx
    | cons a as =>
      simp only [List.getElem?_cons_zero, Option.some.injEq] at hx
      subst hx
      cases as with
      | nil => cases hx'
      | cons b bs =>
        simp only [zero_add, List.getElem?_cons_succ, List.getElem?_cons_zero,
          Option.some.injEq] at hx'
        subst hx'
        unfold zeroRun zeroCoef
        simp only [if_pos hz]
        by_cases hs : seen + 1 > 1
        · exact ⟨0, by omega, by simp [hs]⟩
        · have h0 : seen = 0 := by omega
          subst h0
          refine ⟨1, by omega, ?_⟩
          simp [zeroRun, zeroCoef, if_pos hz']
  | succ t ih =>
    cases xs with
    | nil => cases hx
    | cons a as =>
      simp only [List.getElem?_cons_succ] at hx hx'
      obtain ⟨s, hs, hrun⟩ := ih as hx hx' (zeroCoef multi k seen a).1
      unfold zeroRun
      by_cases hstop : (zeroCoef multi k seen a).2 = true
      · exact ⟨0, by omega, by simp [hstop]⟩
      · refine ⟨s + 1, by omega, ?_⟩
        simp only [hstop, Bool.false_eq_true, if_false, hrun, Option.map_some]

example : zeroRun false 2 0 [[1, 0, 7], [0, 0, 8], [0, 0, 9]] = some 2 := by
  simp [zeroRun, zeroCoef, zeroCoefPart]

/-- **C50 (negation)**: without an intercept the last coefficient is not looked at: two reports with a
    nonzero coefficient stop the run (binary), as do two reports with nonzero coefficients of the last
    feature (multinomial, two classes). -/
theorem C50_negation :
    zeroRun false 2 0 [[0, 5], [0, 5]] = some 1 ∧
      zeroRun true 2 0 [[0, 0, 5, -5], [0, 0, 5, -5]] = some 1 := by
  constructor <;> simp [zeroRun, zeroCoef, zeroCoefPart]

/-! ### C76 -/

/-- **C76 (negation)**: when the solver stops at the all-zero solution the fitted intercept is zero as
    well; for a binary response whose classes are not equally frequent this is not the intercept of the
    intercept-only model. -/
theorem C76_negation [NeZero n] (a : PathArgs) (opt : Optimisers) (hl : a.l1 = true)
    (hmask : ∀ m, a.mask = some m → maskSum a m ≠ 0)
    (hz : ∀ x, opt.l1 x = .allZero) (y : Fin n → Fin 2) (hy : count y 0 ≠ count y 1) :
    (∀ j, fitCoef a opt 0 j = 0) ∧ fitIntercept a opt 0 ≠ binIntercept y := by
  obtain ⟨h1, h2⟩ := allZero_fit a opt hl hmask hz 0
  exact ⟨h1, fun h => hy ((binIntercept_zero y).1 (h.symm.trans h2))⟩

/-- **C76 (partial)**: with equally frequent classes it is.  Missing: other responses (see the
    negation). -/
theorem C76_partial [NeZero n] (a : PathArgs) (opt : Optimisers) (hl : a.l1 = true)
    (hmask : ∀ m, a.mask = some m → maskSum a m ≠ 0)
    (hz : ∀ x, opt.l1 x = .allZero) (y : Fin n → Fin 2) (hy : count y 0 = count y 1) :
    (∀ j, fitCoef a opt 0 j = 0) ∧ fitIntercept a opt 0 = binIntercept y := by
  obtain ⟨h1, h2⟩ := allZero_fit a opt hl hmask hz 0
  exact ⟨h1, h2.trans ((binIntercept_zero y).2 hy).symm⟩

/-- A binary fit without mask. -/
example : (∀ m, (⟨false, true, true, 2, 2, none, none, fun _ => 0⟩ : PathArgs).mask = some m →
      maskSum ⟨false, true, true, 2, 2, none, none, fun _ => 0⟩ m ≠ 0) ∧
    count ![(0 : Fin 2), 1, 1] 0 ≠ count ![(0 : Fin 2), 1, 1] 1 ∧
    count ![(0 : Fin 2), 1] 0 = count ![(0 : Fin 2), 1] 1 :=
  ⟨fun m h => (by cases h), by decide, by decide⟩

/-! ### C49 -/

/-- **C49 (negation)**: in a binary problem with centred features and an intercept, at no penalty of
    the grid is the all-zero coefficient vector optimal: the largest penalty is smaller than the
    critical one by the factor one minus the frequency of class one. -/
theorem C49_negation [NeZero n] (X : Fin n → Fin (p + 1) → ℝ) (hX : ∀ j, ∑ i, X i j = 0)
    (y : Fin n → Fin 2) (hle : n ≤ 10 ^ 10) (h0 : 0 < count y 0) (h1 : 0 < count y 1)
    (hcorr : ∃ j, ∑ i, X i j * ((y i : ℕ) : ℝ) ≠ 0) {eps : ℝ} (he : 0 < eps) (he1 : eps < 1)
    {num : Nat} (hnum : 2 ≤ num) :
    ∃ Cs, csFromGrad (binGrad0 true X y) eps num = .ok Cs ∧
      ∀ C ∈ Cs, ¬ ZeroOptimal (binL1 X y (1 / C)) := by
  have hn : (0 : ℝ) < n := by exact_mod_cast Nat.pos_of_ne_zero (NeZero.ne n)
  have hf : 0 < 1 - (count y 1 : ℝ) / n := by
    have := count_two y
    have h0' : (0 : ℝ) < count y 0 := by exact_mod_cast h0
    rw [sub_pos, div_lt_one hn]; linarith
  have hf1 : 1 - (count y 1 : ℝ) / n < 1 := by
    have h1' : (0 : ℝ) < count y 1 := by exact_mod_cast h1
    have : 0 < (count y 1 : ℝ) / n := by positivity
    linarith
  obtain ⟨j, hm, hmax⟩ := binary_alphaMax X hX y hle h0 h1
  have hpos : 0 < |binCrit X y j| := by
    obtain ⟨j', hj'⟩ := hcorr
    refine lt_of_lt_of_le (abs_pos.2 ?_) (hmax j')
    unfold binCrit
    simp only [mul_sub, Finset.sum_sub_distrib, ← Finset.sum_mul, hX j', zero_mul, zero_sub]
    exact div_ne_zero (neg_ne_zero.2 hj') hn.ne'
  have hmpos : 0 < (1 - (count y 1 : ℝ) / n) * |binCrit X y j| := mul_pos hf hpos
  refine ⟨_, by rw [csFromGrad, hm], fun C hC hopt => ?_⟩
  have hCle := (cs_layout hmpos he he1 hnum).2.2.2.2 C hC
  have h3 := (bin_zero_optimal X y h0 h1).1 hopt j
  have hCpos : 0 < C := lt_of_lt_of_le (by positivity) hCle
  have h4 : 1 / C ≤ (1 - (count y 1 : ℝ) / n) * |binCrit X y j| := by
    rw [div_le_comm₀ hmpos hCpos] at hCle
    exact hCle
  nlinarith

/-- **C49 (partial, binary)**: the grid has the requested length and increases from `1/m` to
    `1/(m eps)`, where `m` is one minus the frequency of class one times the critical penalty; the
    all-zero vector is optimal exactly from the critical penalty on, so below the largest penalty of
    the grid it is not.  Missing: that it is optimal at the largest penalty (see the negation). -/
theorem C49_binary_partial [NeZero n] (X : Fin n → Fin (p + 1) → ℝ) (hX : ∀ j, ∑ i, X i j = 0)
    (y : Fin n → Fin 2) (hle : n ≤ 10 ^ 10) (h0 : 0 < count y 0) (h1 : 0 < count y 1)
    (hcorr : ∃ j, ∑ i, X i j * ((y i : ℕ) : ℝ) ≠ 0) {eps : ℝ} (he : 0 < eps) (he1 : eps < 1)
    {num : Nat} (hnum : 2 ≤ num) :
    ∃ crit : ℝ, 0 < crit ∧ (∀ lam, ZeroOptimal (binL1 X y lam) ↔ crit ≤ lam) ∧
      ∃ Cs, csFromGrad (binGrad0 true X y) eps num = .ok Cs ∧ Cs.length = num ∧
        Cs.Pairwise (· < ·) ∧ Cs.head? = some (1 / ((1 - (count y 1 : ℝ) / n) * crit)) ∧
        Cs.getLast? = some (1 / ((1 - (count y 1 : ℝ) / n) * crit * eps)) := by
  have hn : (0 : ℝ) < n := by exact_mod_cast Nat.pos_of_ne_zero (NeZero.ne n)
  have hf : 0 < 1 - (count y 1 : ℝ) / n := by
    have := count_two y
    have h0' : (0 : ℝ) < count y 0 := by exact_mod_cast h0
    rw [sub_pos, div_lt_one hn]; linarith
  obtain ⟨j, hm, hmax⟩ := binary_alphaMax X hX y hle h0 h1
  have hpos : 0 < |binCrit X y j| := by
    obtain ⟨j', hj'⟩ := hcorr
    refine lt_of_lt_of_le (abs_pos.2 ?_) (hmax j')
    unfold binCrit
    simp only [mul_sub, Finset.sum_sub_distrib, ← Finset.sum_mul, hX j', zero_mul, zero_sub]
    exact div_ne_zero (neg_ne_zero.2 hj') hn.ne'
  have hmpos : 0 < (1 - (count y 1 : ℝ) / n) * |binCrit X y j| := mul_pos hf hpos
  obtain ⟨l1, l2, l3, l4, -⟩ := cs_layout hmpos he he1 hnum
  refine ⟨|binCrit X y j|, hpos, fun lam => ?_, _, by rw [csFromGrad, hm], l1, l2, l3, l4⟩
  rw [bin_zero_optimal X y h0 h1]
  exact ⟨fun h => h j, fun h j' => (hmax j').trans h⟩

/-- One centred feature, two samples of each class. -/
example : (∀ j, ∑ i, (fun (i : Fin 4) (_ : Fin 1) => (![1, 1, -1, -1] i : ℝ)) i j = 0) ∧
    0 < count ![(1 : Fin 2), 1, 0, 0] 0 ∧ 0 < count ![(1 : Fin 2), 1, 0, 0] 1 ∧
    (∃ j, ∑ i, (fun (i : Fin 4) (_ : Fin 1) => (![1, 1, -1, -1] i : ℝ)) i j *
      ((![(1 : Fin 2), 1, 0, 0] i : ℕ) : ℝ) ≠ 0) := by
  refine ⟨fun j => ?_, by decide, by decide, 0, ?_⟩
  · simp [Fin.sum_univ_four]
  · simp [Fin.sum_univ_four]

/-- **C49 (multinomial)**: with an intercept and every class present, the largest penalty of the grid
    is critical: the all-zero coefficients are optimal at a penalty exactly when it is at least
    that; the grid has the requested length and increases from its inverse by the factor `1/eps`. -/
theorem C49_multinomial [NeZero n] (X : Fin n → Fin p → ℝ) (y : Fin n → Fin (k + 1))
    (hk : n + (k + 1) < 10 ^ 10) (hall : ∀ c, 0 < count y c)
    (hcorr : ∃ c j, ∑ i, ((count y c : ℝ) / n - (if y i = c then 1 else 0)) * X i j ≠ 0)
    {eps : ℝ} (he : 0 < eps) (he1 : eps < 1) {num : Nat} (hnum : 2 ≤ num) :
    ∃ crit : ℝ, 0 < crit ∧ (∀ lam, ZeroOptimalM (multiL1 X y lam) ↔ crit ≤ lam) ∧
      ∃ Cs, csFromGrad (multiGrad0 true X y) eps num = .ok Cs ∧ Cs.length = num ∧
        Cs.Pairwise (· < ·) ∧ Cs.head? = some (1 / crit) ∧
        Cs.getLast? = some (1 / (crit * eps)) := by
  have hn : (0 : ℝ) < n := by exact_mod_cast Nat.pos_of_ne_zero (NeZero.ne n)
  obtain ⟨hm1, hm2⟩ := multiGrad0_mem X y hk hall
  obtain ⟨c, j, hcj⟩ := hcorr
  obtain ⟨m, hm⟩ := absMax_ok (l := (multiGrad0 true X y).dropLast)
    (List.ne_nil_of_mem (hm1 c j))
  obtain ⟨ha, v, hv, hvm⟩ := absMax_spec hm
  have hpos : 0 < m := lt_of_lt_of_le (abs_pos.2 (div_ne_zero hcj hn.ne')) (ha _ (hm1 c j))
  obtain ⟨l1, l2, l3, l4, -⟩ := cs_layout hpos he he1 hnum
  refine ⟨m, hpos, fun lam => ?_, _, by rw [csFromGrad, hm], l1, l2, l3, l4⟩
  rw [multi_zero_optimal X y hall]
  constructor
  · intro h
    rcases hm2 v hv with rfl | ⟨c, j, rfl⟩
    · rw [← hvm, abs_zero] at hpos; exact absurd hpos (lt_irrefl _)
    · rw [← hvm]; exact h c j
  · exact fun h c j => (ha _ (hm1 c j)).trans h

/-- Three classes, one feature. -/
example : (∀ c, 0 < count ![(0 : Fin 3), 1, 2] c) ∧
    ∃ c j, ∑ i, ((count ![(0 : Fin 3), 1, 2] c : ℝ) / (3 : ℕ) -
      (if ![(0 : Fin 3), 1, 2] i = c then 1 else 0)) *
        (fun (i : Fin 3) (_ : Fin 1) => (![1, 0, 0] i : ℝ)) i j ≠ 0 := by
  have e : count ![(0 : Fin 3), 1, 2] 0 = 1 := by decide
  refine ⟨by decide, 0, 0, ?_⟩
  rw [e]
  simp [Fin.sum_univ_three]
  norm_num

/-- **C49 (negation, no intercept)**: without an intercept the gradient of the last feature is
    ignored, so that there are data for which the all-zero vector is optimal at no penalty of the grid;
    and with a single feature no grid is produced at all. -/
theorem C49_negation_no_intercept :
    (∀ {n : Nat} (X : Fin n → Fin 1 → ℝ) (y : Fin n → Fin 2) (eps : ℝ) (num : Nat),
      csFromGrad (binGrad0 false X y) eps num = .error .valueError) ∧
    ∃ (X : Fin 2 → Fin 2 → ℝ) (y : Fin 2 → Fin 2), ∀ (eps : ℝ) (num : Nat), 0 < eps → eps < 1 →
      2 ≤ num → ∃ Cs, csFromGrad (binGrad0 false X y) eps num = .ok Cs ∧
        ∀ C ∈ Cs, ¬ ∀ w, binL1 X y (1 / C) 0 (fun _ => 0) ≤ binL1 X y (1 / C) 0 w := by
  constructor
  · intro n X y eps num
    simp [binGrad0, csFromGrad, binLossGrad, absMax]
  · refine ⟨![![1, 3], ![-1, -3]], ![1, 0], fun eps num he he1 hnum => ?_⟩
    have hm : absMax (binGrad0 false ![![1, 3], ![-1, -3]] ![(1 : Fin 2), 0]).dropLast =
        .ok (1 / 4) := by
      simp [binGrad0, binLossGrad, absMax, applyMask, expit, Fin.sum_univ_two]
      norm_num [abs_of_pos, abs_of_neg]
    refine ⟨_, by rw [csFromGrad, hm], fun C hC hopt => ?_⟩
    have hCle := (cs_layout (m := 1 / 4) (by norm_num) he he1 hnum).2.2.2.2 C hC
    have h3 := no_intercept_necessary _ _ hopt 1
    simp [Fin.sum_univ_two] at h3
    norm_num [abs_of_pos, abs_of_neg] at h3 hCle
    have hCpos : 0 < C := by linarith
    have : C⁻¹ ≤ 1 / 4 := by
      rw [inv_le_comm₀ hCpos (by norm_num)]; norm_num; linarith
    linarith

end Verif.Logistic
