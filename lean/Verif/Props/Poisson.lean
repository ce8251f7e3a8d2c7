import Verif.Model.Poisson
import Verif.Spec.Poisson
import Verif.Lemmas.Grid
import Mathlib.Analysis.SpecialFunctions.ExpDeriv
import Mathlib.Analysis.Calculus.Deriv.Pow
import Verif.Lemmas.Poisson
/-!
C39-C43, C45, C75: the Poisson regression.
-/
namespace Verif.Poisson
open Verif.Py Verif.Scaling Verif.Spec.Grid Verif.Spec.Poisson
variable {n p : Nat}

/-! ### C39 -/

/-- **C39**: `soft_threshold(x, t)` is the unique minimiser of `(b - x)²/2 + t |b|`. -/
theorem C39_unique_minimiser (x t : ℝ) (ht : 0 ≤ t) :
    (∀ b, proxObj x t (softThreshold x t) ≤ proxObj x t b) ∧
      ∀ b, proxObj x t b = proxObj x t (softThreshold x t) → b = softThreshold x t := by
  constructor
  · intro b
    have := soft_prox ht b (x := x)
    have := sq_nonneg (b - softThreshold x t)
    linarith
  · intro b hb
    have h1 := soft_prox ht b (x := x)
    have h2 := sq_nonneg (b - softThreshold x t)
    have h3 : (b - softThreshold x t) ^ 2 = 0 := by linarith
    have := pow_eq_zero_iff (two_ne_zero) |>.1 h3
    linarith

/-- **C39**: it is odd, monotone, 1-Lipschitz, and zero exactly on `|x| ≤ t`. -/
theorem C39_shape (t : ℝ) (ht : 0 ≤ t) :
    (∀ x, softThreshold (-x) t = -softThreshold x t) ∧
    (∀ x x', x ≤ x' → softThreshold x t ≤ softThreshold x' t) ∧
    (∀ x x', |softThreshold x t - softThreshold x' t| ≤ |x - x'|) ∧
    (∀ x, softThreshold x t = 0 ↔ |x| ≤ t) := by
  have cases : ∀ x, (t < x ∧ softThreshold x t = x - t) ∨ (x < -t ∧ softThreshold x t = x + t) ∨
      ((-t ≤ x ∧ x ≤ t) ∧ softThreshold x t = 0) := by
    intro x
    rcases lt_or_ge t x with h | h
    · exact .inl ⟨h, soft_of_gt ht h⟩
    · rcases lt_or_ge x (-t) with h' | h'
      · exact .inr (.inl ⟨h', soft_of_lt ht h'⟩)
      · exact .inr (.inr ⟨⟨h', h⟩, soft_of_le (abs_le.2 ⟨h', h⟩)⟩)
  refine ⟨?_, ?_, ?_, ?_⟩
  · intro x
    rcases cases x with ⟨h, e⟩ | ⟨h, e⟩ | ⟨h, e⟩ <;>
    rcases cases (-x) with ⟨h', e'⟩ | ⟨h', e'⟩ | ⟨h', e'⟩ <;> rw [e, e'] <;> linarith
  · intro x x' hx
    rcases cases x with ⟨h, e⟩ | ⟨h, e⟩ | ⟨h, e⟩ <;>
    rcases cases x' with ⟨h', e'⟩ | ⟨h', e'⟩ | ⟨h', e'⟩ <;> rw [e, e'] <;> linarith
  · intro x x'
    rw [abs_le]
    have h1 := le_abs_self (x - x')
    have h2 := neg_abs_le (x - x')
    have h3 := abs_nonneg (x - x')
    rcases cases x with ⟨h, e⟩ | ⟨h, e⟩ | ⟨h, e⟩ <;>
    rcases cases x' with ⟨h', e'⟩ | ⟨h', e'⟩ | ⟨h', e'⟩ <;> rw [e, e'] <;> constructor <;> linarith
  · intro x
    rw [abs_le]
    rcases cases x with ⟨h, e⟩ | ⟨h, e⟩ | ⟨h, e⟩ <;> rw [e]
    · constructor
      · intro h'; linarith
      · intro h'; linarith [h'.2]
    · constructor
      · intro h'; linarith
      · intro h'; linarith [h'.1]
    · simp [h]

example : softThreshold 5 2 = 3 ∧ softThreshold (-5) 2 = -3 ∧ softThreshold 1 2 = 0 :=
  ⟨by rw [soft_of_gt] <;> norm_num, by rw [soft_of_lt] <;> norm_num,
    ((C39_shape 2 (by norm_num)).2.2.2 1).2 (by norm_num)⟩

/-! ### C40 -/

/-- **C40**: a coordinate update minimises the penalised surrogate in its coordinate. -/
theorem C40_coordinate_minimises [NeZero n] (pen : Pen) (hl : 0 ≤ pen.alpha) (h1 : 0 ≤ pen.l1)
    (X : Fin n → Fin p → ℝ) (w z : Fin n → ℝ) (b : ℝ)
    (coef : Fin p → ℝ) (j : Fin p) (hD : 0 < denUpdate X w j + pen.alpha * (1 - pen.l1)) (v : ℝ) :
    surrogate X w z pen.alpha pen.l1 b (cdCoord pen X w z b coef j) ≤
      surrogate X w z pen.alpha pen.l1 b (Function.update coef j v) :=
  coord_min pen hl h1 X w z b coef j hD v

/-- **C40**: a sweep does not increase the surrogate, and leaves the inactive coordinates alone.
    (Without an intercept the sweep works with intercept zero, so it must start from zero.) -/
theorem C40_sweep_decreases [NeZero n] (pen : Pen) (hl : 0 ≤ pen.alpha) (h1 : 0 ≤ pen.l1)
    (X : Fin n → Fin p → ℝ) (w z : Fin n → ℝ) (hw : 0 < ∑ i, w i)
    (active : List (Fin p)) (hD : ∀ j ∈ active, 0 < denUpdate X w j + pen.alpha * (1 - pen.l1))
    (coef : Fin p → ℝ) (b : ℝ) (hb : pen.fi = false → b = 0) :
    surrogate X w z pen.alpha pen.l1 (cdSweep pen X w z active coef).2
        (cdSweep pen X w z active coef).1 ≤ surrogate X w z pen.alpha pen.l1 b coef ∧
      ∀ j, j ∉ active → (cdSweep pen X w z active coef).1 j = coef j := by
  refine ⟨(fold_le pen hl h1 X w z _ active hD coef).trans ?_, fun j hj =>
    fold_inactive pen X w z _ active coef j hj⟩
  cases hfi : pen.fi with
  | true => exact intercept_le pen hfi X w z hw coef b
  | false => 
    have h0 : cdIntercept pen X w z coef = 0 := by simp [cdIntercept, hfi]
    exact le_of_eq (by rw [hb hfi]; exact congrArg (surrogate X w z _ _ · coef) h0)

/-- The hypotheses of C40 are met by the first sweep of a fit: weights are exponentials. -/
example : ∃ coef : Fin 2 → ℝ, ∃ b : ℝ,
    surrogate ![![1, 2], ![3, -1]] (fun _ => (1 : ℝ)) ![2, 0] 1 (1 / 2) b coef ≤
      surrogate ![![1, 2], ![3, -1]] (fun _ => (1 : ℝ)) ![2, 0] 1 (1 / 2) 0 (fun _ => 0) ∧
    coef 1 = 0 := by
  let X : Fin 2 → Fin 2 → ℝ := ![![1, 2], ![3, -1]]
  have h := C40_sweep_decreases ⟨1, 1 / 2, true⟩ (by norm_num) (by norm_num) X
    (fun _ => (1 : ℝ)) ![2, 0] (by norm_num) [0]
    (fun j _ => den_pos _ (by norm_num) (by norm_num) X _ (fun _ => by norm_num) j
      (.inr (by norm_num))) (fun _ => 0) 0 (fun h => by cases h)
  exact ⟨_, _, h.1, h.2 1 (by simp)⟩

/-! ### C41 -/

/-- **C41**: a point that a full sweep leaves unchanged is a global minimiser of the elastic-net
    Poisson objective (over coefficients alone when no intercept is fitted).  A feature must have a
    nonzero entry or the ridge part be positive, else NumPy divides by zero. -/
theorem C41_fixed_points_optimal [NeZero n] (pen : Pen) (hl : 0 ≤ pen.alpha) (h1 : 0 ≤ pen.l1)
    (h1' : pen.l1 ≤ 1) (X : Fin n → Fin p → ℝ) (y : Fin n → ℝ)
    (hX : ∀ j, (∃ i, X i j ≠ 0) ∨ 0 < pen.alpha * (1 - pen.l1))
    (coef : Fin p → ℝ) (b : ℝ)
    (hfix : cdSweep pen X (adjustedResponse X y coef b).1 (adjustedResponse X y coef b).2
      (List.finRange p) coef = (coef, b)) :
    ∀ b' coef', (pen.fi = false → b' = b) →
      poisObj X y pen.alpha pen.l1 b coef ≤ poisObj X y pen.alpha pen.l1 b' coef' := by
  intro b' coef' hb
  exact sweep_fixed_optimal pen hl h1 h1' X y _ (List.nodup_finRange p) (fun j _ => hX j) coef b
    hfix b' hb coef' (fun j hj => absurd (List.mem_finRange j) hj)

/-- **C41**, for the shortened sweeps of later iterations: a point that a sweep over the nonzero
    coefficients leaves unchanged is a minimiser among the points supported there. -/
theorem C41_active_fixed_points [NeZero n] (pen : Pen) (hl : 0 ≤ pen.alpha) (h1 : 0 ≤ pen.l1)
    (h1' : pen.l1 ≤ 1) (X : Fin n → Fin p → ℝ) (y : Fin n → ℝ)
    (hX : ∀ j, (∃ i, X i j ≠ 0) ∨ 0 < pen.alpha * (1 - pen.l1))
    (coef : Fin p → ℝ) (b : ℝ)
    (hfix : cdSweep pen X (adjustedResponse X y coef b).1 (adjustedResponse X y coef b).2
      (nonzeros coef) coef = (coef, b)) :
    ∀ b' coef', (pen.fi = false → b' = b) → (∀ j, coef j = 0 → coef' j = 0) →
      poisObj X y pen.alpha pen.l1 b coef ≤ poisObj X y pen.alpha pen.l1 b' coef' := by
  intro b' coef' hb hc
  refine sweep_fixed_optimal pen hl h1 h1' X y _ ?_ (fun j _ => hX j) coef b hfix b' hb coef' ?_
  · exact (List.nodup_finRange p).filter _
  · intro j hj
    have : coef j = 0 := by simpa [nonzeros] using hj
    rw [hc j this, this]

/-- A nonzero fixed point, with an intercept. -/
example : ∃ y : Fin 2 → ℝ, ∃ coef : Fin 1 → ℝ, coef 0 ≠ 0 ∧
    cdSweep ⟨1 / 10, 1, true⟩ ![![1], ![-1]] (adjustedResponse ![![1], ![-1]] y coef 0).1
      (adjustedResponse ![![1], ![-1]] y coef 0).2 (List.finRange 1) coef = (coef, 0) := by
  refine ⟨![Real.exp 1 + 1 / 10, Real.exp (-1) - 1 / 10], ![1], by norm_num, ?_⟩
  have e1 := Real.exp_pos 1
  have e2 := Real.exp_pos (-1)
  have hI : cdIntercept ⟨1 / 10, 1, true⟩ (![![1], ![-1]] : Fin 2 → Fin 1 → ℝ)
      (adjustedResponse ![![1], ![-1]] ![Real.exp 1 + 1 / 10, Real.exp (-1) - 1 / 10] ![1] 0).1
      (adjustedResponse ![![1], ![-1]] ![Real.exp 1 + 1 / 10, Real.exp (-1) - 1 / 10] ![1] 0).2
      ![1] = 0 := by
    simp [cdIntercept, adjustedResponse, dot, Fin.sum_univ_two]
    left
    field_simp
    ring
  rw [cdSweep, hI]
  have hnum : numUpdate (![![1], ![-1]] : Fin 2 → Fin 1 → ℝ)
      (adjustedResponse ![![1], ![-1]] ![Real.exp 1 + 1 / 10, Real.exp (-1) - 1 / 10] ![1] 0).1
      (adjustedResponse ![![1], ![-1]] ![Real.exp 1 + 1 / 10, Real.exp (-1) - 1 / 10] ![1] 0).2
      0 ![1] 0 = (Real.exp 1 + Real.exp (-1)) / 2 + 1 / 10 := by
    simp [numUpdate, adjustedResponse, dot, Fin.sum_univ_two]
    field_simp
    ring
  have hden : denUpdate (![![1], ![-1]] : Fin 2 → Fin 1 → ℝ)
      (adjustedResponse ![![1], ![-1]] ![Real.exp 1 + 1 / 10, Real.exp (-1) - 1 / 10] ![1] 0).1
      0 = (Real.exp 1 + Real.exp (-1)) / 2 := by
    simp [denUpdate, adjustedResponse, dot, Fin.sum_univ_two]
  refine Prod.ext ?_ rfl
  funext j
  fin_cases j
  simp only [List.finRange_succ, List.finRange_zero, List.map_nil, List.foldl_cons, List.foldl_nil,
    cdCoord, hnum, hden]
  rw [soft_of_gt (by norm_num) (by norm_num; positivity)]
  have : Real.exp 1 + Real.exp (-1) ≠ 0 := by positivity
  simp
  field_simp
  exact this

/-! ### C42 -/

/-- **C42 (negation)**: a warm start never lets a coefficient that starts at zero become nonzero,
    whatever the data, the penalty and the number of iterations; and with two samples or more, a
    start with some nonzero coefficient raises `ValueError` in the first sweep. -/
theorem C42_negation (pen : Pen) (tol : ℝ) (X : Fin n → Fin p → ℝ) (y : Fin n → ℝ)
    (coef0 : Fin p → ℝ) (b0 : ℝ) :
    (∀ maxIter c b v, cd pen tol maxIter true coef0 b0 X y = .ok (c, b, v) →
      ∀ j, coef0 j = 0 → c j = 0) ∧
    (∀ maxIter, 2 ≤ n → (∃ j, coef0 j ≠ 0) →
      cd pen tol (maxIter + 1) true coef0 b0 X y = .error .valueError) := by
  constructor
  · intro maxIter c b v h j hj
    simp only [cd, if_true] at h
    exact cdLoop_zero_stays pen tol X y j maxIter _ coef0 _ (by simp [nonzeros, hj]) hj h
  · rintro maxIter hn ⟨j, hj⟩
    have h1 : nonzeros coef0 ≠ [] := fun h => hj (nonzeros_eq_nil h j)
    have h2 : n ≠ 1 := by omega
    simp [cd, cdLoop, sweepActive, h1, h2]

/-- **C42 (negation), on one data set**: warm-started at zero the coefficient stays zero, cold it
    becomes `1`. -/
theorem C42_negation_witness :
    (∃ c b v, cd ⟨1, 1, true⟩ (1 / 100) 1 false (fun _ => 0) 0
      (![![1], ![-1]] : Fin 2 → Fin 1 → ℝ) ![4, 0] = .ok (c, b, v) ∧ c 0 ≠ 0) ∧
    (∃ c b v, cd ⟨1, 1, true⟩ (1 / 100) 1 true (fun _ => 0) 0
      (![![1], ![-1]] : Fin 2 → Fin 1 → ℝ) ![4, 0] = .ok (c, b, v) ∧ c 0 = 0) := by
  constructor
  · obtain ⟨c, b, v, h, hc⟩ := cold_nonzero
    exact ⟨c, b, v, h, by rw [hc]; exact one_ne_zero⟩
  · have : ∃ c b v, cd ⟨1, 1, true⟩ (1 / 100) 1 true (fun _ => 0) 0
      (![![1], ![-1]] : Fin 2 → Fin 1 → ℝ) ![4, 0] = .ok (c, b, v) := by
      simp only [cd, cdLoop, sweepActive, nonzeros_zero, true_or, if_true, one_ne_zero, if_false]
      split_ifs
      · exact ⟨_, _, _, rfl⟩
      · exact ⟨_, _, _, rfl⟩
    obtain ⟨c, b, v, h⟩ := this
    exact ⟨c, b, v, h, (C42_negation _ _ _ _ _ _).1 _ _ _ _ h 0 rfl⟩

/-- **C42 (partial)**: the warm start is only a start in the one case where it works as intended, one
    sample and no zero among the starting coefficients: the fit is the iteration over all coefficients
    from that start.  Missing: every other case (see the negation). -/
theorem C42_partial (pen : Pen) (tol : ℝ) (maxIter : Nat) (X : Fin 1 → Fin p → ℝ) (y : Fin 1 → ℝ)
    (coef0 : Fin p → ℝ) (h : ∀ j, coef0 j ≠ 0) (b0 : ℝ) (hfi : pen.fi = true) :
    cd pen tol maxIter true coef0 b0 X y =
      cdLoop pen tol X y maxIter (.flat (List.finRange p)) coef0 b0 := by
  have h1 : nonzeros coef0 = List.finRange p := by simp [nonzeros, h]
  cases maxIter with
  | zero => simp [cd, cdLoop, hfi]
  | succ m => simp [cd, cdLoop, h1, sweepActive, hfi]

example : cd ⟨1, 1, true⟩ (1 / 100) 3 true ![1, 2] 0 ![![1, 1]] ![3] =
    cdLoop ⟨1, 1, true⟩ (1 / 100) ![![1, 1]] ![3] 3 (.flat (List.finRange 2)) ![1, 2] 0 :=
  C42_partial _ _ _ _ _ _ (fun j => by fin_cases j <;> norm_num) _ rfl

/-! ### C43 -/

/-- **C43**: the value supplied to L-BFGS is the documented smooth loss (with intercept zero when the
    vector has no entry for it). -/
theorem C43_value [NeZero n] (X : Fin n → Fin p → ℝ) (y sw : Fin n → ℝ) (l2 : ℝ) (coef : Fin p → ℝ)
    (b : Option ℝ) : (lossGrad X y sw l2 coef b).1 = smoothLoss X y sw l2 (b.getD 0) coef := by
  have hn : (n : ℝ) ≠ 0 := by exact_mod_cast NeZero.ne n
  simp only [lossGrad, smoothLoss, dot]
  have : ∀ i, sw i * (Real.exp (b.getD 0 + ∑ j, X i j * coef j) -
      y i * (b.getD 0 + ∑ j, X i j * coef j)) =
      -(sw i * (y i * (b.getD 0 + ∑ j, X i j * coef j) -
        Real.exp (b.getD 0 + ∑ j, X i j * coef j))) := fun i => by ring
  rw [Finset.sum_congr rfl fun i _ => this i, Finset.sum_neg_distrib]
  simp only [pow_two]
  ring

/-- **C43**: the value is a differentiable function of coefficients and intercept, and its derivative
    in every direction is the product of the returned gradient with that direction. -/
theorem C43_gradient [NeZero n] (X : Fin n → Fin p → ℝ) (y sw : Fin n → ℝ) (l2 : ℝ)
    (coef : Fin p → ℝ) (b : ℝ) :
    Differentiable ℝ (fun q : (Fin p → ℝ) × ℝ => (lossGrad X y sw l2 q.1 (some q.2)).1) ∧
    ∃ g, (lossGrad X y sw l2 coef (some b)).2.2 = some g ∧ ∀ (d : Fin p → ℝ) (e : ℝ),
      HasDerivAt (fun t : ℝ => (lossGrad X y sw l2 (fun j => coef j + t * d j)
        (some (b + t * e))).1) (∑ j, (lossGrad X y sw l2 coef (some b)).2.1 j * d j + g * e) 0 := by
  refine ⟨?_, _, rfl, fun d e => ?_⟩
  · simp only [lossGrad, dot, Option.getD_some]
    fun_prop
  · simp only [C43_value, Option.getD_some]
    have := loss_line X y sw l2 coef d b e
    rw [grad_dir] at this
    exact this

/-- **C43** without an intercept. -/
theorem C43_gradient_no_intercept [NeZero n] (X : Fin n → Fin p → ℝ) (y sw : Fin n → ℝ) (l2 : ℝ)
    (coef : Fin p → ℝ) :
    Differentiable ℝ (fun q : Fin p → ℝ => (lossGrad X y sw l2 q none).1) ∧
    (lossGrad X y sw l2 coef none).2.2 = none ∧ ∀ d : Fin p → ℝ,
      HasDerivAt (fun t : ℝ => (lossGrad X y sw l2 (fun j => coef j + t * d j) none).1)
        (∑ j, (lossGrad X y sw l2 coef none).2.1 j * d j) 0 := by
  refine ⟨?_, rfl, fun d => ?_⟩
  · simp only [lossGrad, dot, Option.getD_none]
    fun_prop
  · simp only [C43_value, Option.getD_none]
    have := loss_line X y sw l2 coef d 0 0
    rw [grad_dir] at this
    simpa [lossGrad, dot] using this

example : lossGrad ![![2]] ![3] ![1] 1 ![0] (some 0) = (1, ![-4], some (-2)) := by
  simp only [lossGrad, dot]
  refine Prod.ext ?_ (Prod.ext ?_ ?_)
  · simp
  · funext j; fin_cases j; simp; norm_num
  · simp; norm_num

/-! ### C45 -/

/-- **C45 (partial)**: a new object raises on prediction; after a fit with an intercept, whatever the
    response, both kinds of prediction succeed, are nonnegative, and the prediction is the mean
    rounded down.  Missing: `fit_intercept=False`, where it is false (see the negation). -/
theorem C45_partial {m : Nat} (y : Fin n → ℝ) (solve : (Fin p → ℝ) × ℝ) (o : PObj p)
    (X : Fin m → Fin p → ℝ) :
    (PObj.new : PObj p).predictMean X = .error .notFitted ∧
    (PObj.new : PObj p).predict X = .error .notFitted ∧
    ∃ mu, (o.fit true y solve).predictMean X = .ok mu ∧ (∀ i, 0 ≤ mu i) ∧
      ∃ md, (o.fit true y solve).predict X = .ok md ∧
        ∀ i, 0 ≤ md i ∧ (∃ k : ℤ, md i = k) ∧ md i ≤ mu i ∧ mu i < md i + 1 := by
  have hnn : ∀ (c : Fin p → ℝ) (b : WithBot ℝ) (x : Fin p → ℝ), 0 ≤ Scaling.predictMean c b x := by
    intro c b x
    cases b with
    | bot => exact le_rfl
    | coe b => exact (Real.exp_pos _).le
  have key : ∃ c b, o.fit true y solve = ⟨some c, some b⟩ := by
    unfold PObj.fit
    split_ifs
    · exact ⟨_, _, rfl⟩
    · exact ⟨_, _, rfl⟩
    · exact absurd rfl ‹¬true = true›
  obtain ⟨c, b, h⟩ := key
  refine ⟨rfl, rfl, ?_⟩
  rw [h]
  refine ⟨_, rfl, fun i => hnn _ _ _, _, rfl, fun i => ⟨?_, ⟨_, rfl⟩, Int.floor_le _,
    Int.lt_floor_add_one _⟩⟩
  exact_mod_cast Int.floor_nonneg.2 (hnn c b (X i))

/-- **C45 (negation)**: after a fit without an intercept to a response that is not constant, a new
    object still raises "not fitted"; and one that was fitted before to a constant response predicts
    with the intercept of that earlier fit. -/
theorem C45_negation {m : Nat} (y : Fin n → ℝ) (hy : ∃ i i', y i ≠ y i')
    (solve : (Fin p → ℝ) × ℝ) (X : Fin m → Fin p → ℝ) :
    ((PObj.new : PObj p).fit false y solve).predictMean X = .error .notFitted ∧
    ∀ (y0 : Fin n → ℝ) (solve0 : (Fin p → ℝ) × ℝ), (∀ i i', y0 i = y0 i') →
      (((PObj.new : PObj p).fit false y0 solve0).fit false y solve).predictMean X =
        .ok fun i => Scaling.predictMean solve.1 (poisInterceptOnly y0) (X i) := by
  have h1 : ¬ ∀ i i', y i = y i' := by
    intro h
    obtain ⟨i, i', hne⟩ := hy
    exact hne (h i i')
  constructor
  · simp [PObj.fit, h1, PObj.new, PObj.predictMean]
  · intro y0 solve0 h0
    simp only [PObj.fit, if_neg h1, if_pos h0, Bool.false_eq_true, if_false, PObj.predictMean]

example : (∃ i i', (![1, 2] : Fin 2 → ℝ) i ≠ ![1, 2] i') ∧
    ∀ i i', (![3, 3] : Fin 2 → ℝ) i = ![3, 3] i' :=
  ⟨⟨0, 1, by norm_num⟩, fun i i' => by fin_cases i <;> fin_cases i' <;> rfl⟩

/-! ### C75 -/

/-- **C75 (negation)**: for every data set and every penalty at or above the critical one, a cold
    coordinate-descent fit reports convergence after one sweep with zero coefficients and intercept
    `ȳ - 1`; unless the mean response is one, another intercept has a smaller objective. -/
theorem C75_negation [NeZero n] (pen : Pen) (hfi : pen.fi = true) (tol : ℝ) (ht : 0 < tol)
    (maxIter : Nat) (coef0 : Fin (p + 1) → ℝ) (b0 : ℝ) (X : Fin n → Fin (p + 1) → ℝ)
    (y : Fin n → ℝ) (hy : 0 < (∑ i, y i) / n) (hy1 : (∑ i, y i) / n ≠ 1)
    (hcrit : ∀ j, |(∑ i, X i j * (y i - (∑ i, y i) / n)) / n| ≤ pen.l1 * pen.alpha) :
    ∃ b, cd pen tol (maxIter + 1) false coef0 b0 X y = .ok (fun _ => 0, b, true) ∧
      ∃ b', poisObj X y pen.alpha pen.l1 b' (fun _ => 0) < poisObj X y pen.alpha pen.l1 b
        (fun _ => 0) := by
  have hn : (0 : ℝ) < n := by exact_mod_cast Nat.pos_of_ne_zero (NeZero.ne n)
  refine ⟨_, cd_first_sweep pen hfi tol ht maxIter coef0 b0 X y hcrit, Real.log ((∑ i, y i) / n), ?_⟩
  set m := (∑ i, y i) / n with hm
  have hS : ∑ i, y i = n * m := by rw [hm]; field_simp
  have hlin : ∀ b0 : ℝ, poisObj X y pen.alpha pen.l1 b0 (fun _ => 0) = Real.exp b0 - m * b0 := by
    intro b0
    simp only [poisObj, mul_zero, Finset.sum_const_zero, add_zero, abs_zero, ne_eq,
      OfNat.ofNat_ne_zero, not_false_eq_true, zero_pow, Finset.sum_sub_distrib, Finset.sum_const,
      Finset.card_univ, Fintype.card_fin, nsmul_eq_mul, ← Finset.sum_mul, hS]
    field_simp
  rw [hlin, hlin, Real.exp_log hy]
  -- strict convexity: exp (m - 1) > m (1 + (m - 1 - log m))
  have hne : m - 1 - Real.log m ≠ 0 := by
    intro h0
    have h2 := Real.add_one_lt_exp (x := Real.log m) (by
      intro hl
      have := Real.exp_log hy
      rw [hl, Real.exp_zero] at this
      exact hy1 this.symm)
    rw [Real.exp_log hy] at h2
    linarith
  have h3 := Real.add_one_lt_exp hne
  have h4 : Real.exp (m - 1) = m * Real.exp (m - 1 - Real.log m) := by
    rw [Real.exp_sub (m - 1), Real.exp_log hy]; field_simp
  rw [h4]
  nlinarith

/-- Concretely: `y = (4, 2)`, one centred feature, `alpha = 2`. -/
example : (0 : ℝ) < (∑ i, (![4, 2] : Fin 2 → ℝ) i) / (2 : ℕ) ∧
    (∑ i, (![4, 2] : Fin 2 → ℝ) i) / (2 : ℕ) ≠ 1 ∧
    ∀ j : Fin 1, |(∑ i, (![![1], ![-1]] : Fin 2 → Fin 1 → ℝ) i j *
      (![4, 2] i - (∑ i, (![4, 2] : Fin 2 → ℝ) i) / (2 : ℕ))) / (2 : ℕ)| ≤ 1 * 2 := by
  refine ⟨by norm_num [Fin.sum_univ_two], by norm_num [Fin.sum_univ_two], fun j => ?_⟩
  fin_cases j
  norm_num [Fin.sum_univ_two]

/-- **C75 (partial)**: when the mean response is one, the point returned at such a penalty is the
    global minimiser.  Missing: every other mean response (see the negation). -/
theorem C75_partial [NeZero n] (pen : Pen) (hfi : pen.fi = true) (hl : 0 ≤ pen.alpha)
    (h1' : pen.l1 ≤ 1) (tol : ℝ) (ht : 0 < tol)
    (maxIter : Nat) (coef0 : Fin (p + 1) → ℝ) (b0 : ℝ) (X : Fin n → Fin (p + 1) → ℝ)
    (y : Fin n → ℝ) (hy1 : (∑ i, y i) / n = 1)
    (hcrit : ∀ j, |(∑ i, X i j * (y i - 1)) / n| ≤ pen.l1 * pen.alpha) :
    ∃ c b, cd pen tol (maxIter + 1) false coef0 b0 X y = .ok (c, b, true) ∧
      ∀ b' c', poisObj X y pen.alpha pen.l1 b c ≤ poisObj X y pen.alpha pen.l1 b' c' := by
  have hn : (0 : ℝ) < n := by exact_mod_cast Nat.pos_of_ne_zero (NeZero.ne n)
  refine ⟨_, _, cd_first_sweep pen hfi tol ht maxIter coef0 b0 X y (by rw [hy1]; exact hcrit), ?_⟩
  intro b' c'
  rw [hy1, sub_self]
  refine Verif.Grid.pois_sufficient hl h1' ?_ ?_ b' c'
  · rw [Real.exp_zero, Finset.sum_sub_distrib]
    rw [div_eq_iff hn.ne'] at hy1
    simp [hy1]
  · intro j
    have := hcrit j
    rw [abs_div, abs_of_pos hn, div_le_iff₀ hn] at this
    rw [Real.exp_zero]
    linarith

example : (∑ i, (![2, 0] : Fin 2 → ℝ) i) / (2 : ℕ) = 1 ∧
    ∀ j : Fin 1, |(∑ i, (![![1], ![-1]] : Fin 2 → Fin 1 → ℝ) i j * (![2, 0] i - 1)) / (2 : ℕ)| ≤
      1 * 1 := by
  refine ⟨by norm_num [Fin.sum_univ_two], fun j => ?_⟩
  fin_cases j
  norm_num [Fin.sum_univ_two]

/-! ### C94: the iterations of coordinate descent -/

/-- **C94**: the result of coordinate descent is the last of a sequence of at most `max_iter` sweeps from
    the start, the first over all coefficients (over the nonzero ones with `warm_start`) and the later ones
    over the nonzero ones.  It stops early exactly when no coefficient changed by `tol` or more; until
    then some coefficient did in every sweep.  Without an intercept the intercept is zero and a previous
    one is ignored. -/
theorem C94_iterates (pen : Pen) (tol : ℝ) (maxIter : Nat) (warm : Bool) (coef0 : Fin p → ℝ) (b0 : ℝ)
    (X : Fin n → Fin p → ℝ) (y : Fin n → ℝ) {c : Fin p → ℝ} {b : ℝ} {v : Bool}
    (h : cd pen tol maxIter warm coef0 b0 X y = .ok (c, b, v)) :
    (∃ (k : Nat) (it : Nat → (Fin p → ℝ) × ℝ), k ≤ maxIter ∧
      it 0 = (if warm then coef0 else fun _ => 0, if warm && pen.fi then b0 else 0) ∧ it k = (c, b) ∧
      (∀ m < k, it (m + 1) = cdSweep pen X (adjustedResponse X y (it m).1 (it m).2).1
        (adjustedResponse X y (it m).1 (it m).2).2
        (if m = 0 ∧ warm = false then List.finRange p else nonzeros (it m).1) (it m).1) ∧
      (∀ m, m + 1 < k → ∃ j, tol ≤ |(it m).1 j - (it (m + 1)).1 j|) ∧
      (v = true → 0 < k ∧ ∀ j, |(it (k - 1)).1 j - c j| < tol) ∧
      (v = false → k = maxIter ∧ (0 < k → ∃ j, tol ≤ |(it (k - 1)).1 j - c j|))) ∧
    (pen.fi = false → b = 0 ∧ cd pen tol maxIter warm coef0 0 X y = .ok (c, b, v)) := by
  have key : ∃ (k : Nat) (it : Nat → (Fin p → ℝ) × ℝ), k ≤ maxIter ∧
      it 0 = (if warm then coef0 else fun _ => 0, if warm && pen.fi then b0 else 0) ∧ it k = (c, b) ∧
      (∀ m < k, it (m + 1) = cdSweep pen X (adjustedResponse X y (it m).1 (it m).2).1
        (adjustedResponse X y (it m).1 (it m).2).2
        (if m = 0 ∧ warm = false then List.finRange p else nonzeros (it m).1) (it m).1) ∧
      (∀ m, m + 1 < k → ∃ j, tol ≤ |(it m).1 j - (it (m + 1)).1 j|) ∧
      (v = true → 0 < k ∧ ∀ j, |(it (k - 1)).1 j - c j| < tol) ∧
      (v = false → k = maxIter ∧ (0 < k → ∃ j, tol ≤ |(it (k - 1)).1 j - c j|)) := by
    cases warm with
    | false =>
      obtain ⟨k, it, h1, h2, h3, h4, h5, h6, h7⟩ := cdLoop_iterates pen tol X y maxIter _ _ _ h
      exact ⟨k, it, h1, h2, h3, fun m hm => by simpa [Active.idx] using h4 m hm, h5, h6, h7⟩
    | true =>
      obtain ⟨k, it, h1, h2, h3, h4, h5, h6, h7⟩ := cdLoop_iterates pen tol X y maxIter _ _ _ h
      refine ⟨k, it, h1, by simpa using h2, h3, fun m hm => ?_, h5, h6, h7⟩
      rw [h4 m hm]
      by_cases h0 : m = 0
      · subst h0
        simp [Active.idx, h2]
      · simp [h0]
  refine ⟨key, fun hfi => ⟨?_, ?_⟩⟩
  · obtain ⟨k, it, -, h2, h3, h4, -⟩ := key
    rcases Nat.eq_zero_or_pos k with rfl | hk
    · rw [h2] at h3
      simp only [hfi, Bool.and_false, Bool.false_eq_true, if_false, Prod.mk.injEq] at h3
      exact h3.2.symm
    · have h5 := h4 (k - 1) (by omega)
      rw [show k - 1 + 1 = k by omega, h3] at h5
      have h6 := congrArg Prod.snd h5
      simpa [cdSweep, cdIntercept, hfi] using h6
  · rw [← h]
    unfold cd
    simp [hfi]

-- A fit with one feature that changes a coefficient.
example : ∃ c b v, cd ⟨1, 1, true⟩ (1 / 100) 1 false (fun _ => 0) 0
    (![![1], ![-1]] : Fin 2 → Fin 1 → ℝ) ![4, 0] = .ok (c, b, v) ∧ c 0 ≠ 0 := by
  obtain ⟨c, b, v, h, hc⟩ := cold_nonzero
  exact ⟨c, b, v, h, by rw [hc]; exact one_ne_zero⟩

end Verif.Poisson
