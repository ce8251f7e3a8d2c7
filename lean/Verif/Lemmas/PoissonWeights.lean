import Verif.Lemmas.Poisson
import Verif.Lemmas.Owlqn
import Verif.Model.PoissonWeights
/-!
The coordinate-descent Poisson solver with sample weights: its fixed points are the minimisers of the weighted
objective.
-/
namespace Verif.Poisson
open Verif.Py Verif.Spec.Poisson

variable {n p : Nat}

/-- Soft-thresholding returns `u` from `u + r` exactly if `r` is a subgradient at `u`. -/
theorem soft_fix_iff {u r t : ℝ} (ht : 0 ≤ t) :
    softThreshold (u + r) t = u ↔ ∀ v, r * (v - u) ≤ t * |v| - t * |u| := by
  constructor
  · intro h v
    have := soft_subgrad (x := u + r) ht v
    rw [h] at this
    linarith
  · intro h
    have h1 := soft_subgrad (x := u + r) ht u
    have h2 := h (softThreshold (u + r) t)
    set s := softThreshold (u + r) t
    nlinarith [sq_nonneg (u - s)]

/-- The numerator of a coordinate update at the point where the weights were computed. -/
theorem numUpdate_eq (X : Fin n → Fin p → ℝ) (y sw : Fin n → ℝ) (coef : Fin p → ℝ) (b : ℝ) (j : Fin p) :
    numUpdate X (weightedResponse X y sw coef b).1 (weightedResponse X y sw coef b).2 b coef j =
      denUpdate X (weightedResponse X y sw coef b).1 j * coef j +
        (∑ i, X i j * (sw i * (y i - Real.exp (b + ∑ j, X i j * coef j)))) / n := by
  set w := (weightedResponse X y sw coef b).1 with hw
  set z := (weightedResponse X y sw coef b).2 with hz
  unfold numUpdate denUpdate
  rw [div_mul_eq_mul_div, ← add_div, Finset.sum_mul, ← Finset.sum_add_distrib]
  congr 1
  refine Finset.sum_congr rfl fun i _ => ?_
  have h4 := dot_update (X i) coef j (coef j)
  rw [Function.update_eq_self] at h4
  have hwi : w i = Real.exp (b + ∑ j, X i j * coef j) * sw i := rfl
  have hzi : z i = b + ∑ k, X i k * coef k + y i / Real.exp (b + ∑ j, X i j * coef j) - 1 := rfl
  have he : Real.exp (b + ∑ j, X i j * coef j) ≠ 0 := (Real.exp_pos _).ne'
  rw [hwi, hzi]
  generalize Real.exp (b + ∑ j, X i j * coef j) = E at he ⊢
  rw [h4]
  field_simp
  ring

/-- The slope of the smooth part along a coordinate, with the sign of a residual. -/
noncomputable def slope (X : Fin n → Fin p → ℝ) (y sw : Fin n → ℝ) (l2 : ℝ) (coef : Fin p → ℝ) (b : ℝ) (j : Fin p) : ℝ :=
  (∑ i, X i j * (sw i * (y i - Real.exp (b + ∑ j, X i j * coef j)))) / n - l2 * coef j

/-- A coordinate update changes nothing exactly if the slope is a subgradient of the L1 part. -/
theorem coord_fix_iff (pen : Pen) (hl : 0 ≤ pen.alpha) (h1 : 0 ≤ pen.l1) (X : Fin n → Fin p → ℝ)
    (y sw : Fin n → ℝ) (b : ℝ) (coef : Fin p → ℝ) (j : Fin p)
    (hD : 0 < denUpdate X (weightedResponse X y sw coef b).1 j + pen.alpha * (1 - pen.l1)) :
    cdCoord pen X (weightedResponse X y sw coef b).1 (weightedResponse X y sw coef b).2 b coef j = coef ↔
      ∀ v, slope X y sw (pen.alpha * (1 - pen.l1)) coef b j * (v - coef j) ≤
        pen.alpha * pen.l1 * |v| - pen.alpha * pen.l1 * |coef j| := by
  set D := denUpdate X (weightedResponse X y sw coef b).1 j + pen.alpha * (1 - pen.l1) with hDd
  have e1 : numUpdate X (weightedResponse X y sw coef b).1 (weightedResponse X y sw coef b).2 b coef j =
      D * coef j + slope X y sw (pen.alpha * (1 - pen.l1)) coef b j := by
    rw [numUpdate_eq, slope, hDd]; ring
  have e2 : cdCoord pen X (weightedResponse X y sw coef b).1 (weightedResponse X y sw coef b).2 b coef j = coef ↔
      softThreshold (D * coef j + slope X y sw (pen.alpha * (1 - pen.l1)) coef b j) (pen.l1 * pen.alpha) =
        D * coef j := by
    rw [cdCoord, Function.update_eq_self_iff, e1, ← hDd, div_eq_iff hD.ne', mul_comm (coef j)]
  rw [e2, soft_fix_iff (mul_nonneg h1 hl)]
  constructor
  · intro h v
    have := h (D * v)
    rw [abs_mul, abs_mul, abs_of_pos hD] at this
    refine le_of_mul_le_mul_left ?_ hD
    linarith
  · intro h v
    have := mul_le_mul_of_nonneg_left (h (v / D)) hD.le
    have e3 : D * (v / D) = v := by field_simp
    have e4 : D * |v / D| = |v| := by rw [abs_div, abs_of_pos hD]; field_simp
    rw [abs_mul, abs_of_pos hD]
    calc _ = D * (slope X y sw (pen.alpha * (1 - pen.l1)) coef b j * (v / D - coef j)) := by
          have : D * (slope X y sw (pen.alpha * (1 - pen.l1)) coef b j * (v / D - coef j)) =
              slope X y sw (pen.alpha * (1 - pen.l1)) coef b j * (D * (v / D) - D * coef j) := by ring
          rw [this, e3]
      _ ≤ _ := this
      _ = _ := by rw [mul_sub, mul_left_comm D _ |v / D|, e4]; ring

/-- A sweep whose every update changes nothing changes nothing. -/
theorem fold_fixed_of (pen : Pen) (X : Fin n → Fin p → ℝ) (w z : Fin n → ℝ) (b : ℝ) (active : List (Fin p))
    (coef : Fin p → ℝ) (h : ∀ j ∈ active, cdCoord pen X w z b coef j = coef) :
    active.foldl (cdCoord pen X w z b) coef = coef := by
  induction active with
  | nil => rfl
  | cons k js ih =>
    rw [List.foldl_cons, h k (by simp)]
    exact ih fun j hj => h j (by simp [hj])

/-- The intercept update returns the intercept exactly if the weighted residuals sum to zero. -/
theorem intercept_fix_iff (pen : Pen) (hfi : pen.fi = true) (X : Fin n → Fin p → ℝ) (y sw : Fin n → ℝ)
    (hsw : ∀ i, 0 ≤ sw i) (hpos : ∃ i, 0 < sw i) (coef : Fin p → ℝ) (b : ℝ) :
    cdIntercept pen X (weightedResponse X y sw coef b).1 (weightedResponse X y sw coef b).2 coef = b ↔
      ∑ i, sw i * (y i - Real.exp (b + ∑ j, X i j * coef j)) = 0 := by
  have hW : 0 < ∑ i, (weightedResponse X y sw coef b).1 i := by
    obtain ⟨i, hi⟩ := hpos
    exact Finset.sum_pos' (fun i _ => mul_nonneg (Real.exp_pos _).le (hsw i))
      ⟨i, Finset.mem_univ _, mul_pos (Real.exp_pos _) hi⟩
  have e : ∑ i, (weightedResponse X y sw coef b).1 i * ((weightedResponse X y sw coef b).2 i - dot (X i) coef) =
      b * (∑ i, (weightedResponse X y sw coef b).1 i) +
        ∑ i, sw i * (y i - Real.exp (b + ∑ j, X i j * coef j)) := by
    rw [Finset.mul_sum, ← Finset.sum_add_distrib]
    refine Finset.sum_congr rfl fun i _ => ?_
    show Real.exp (b + ∑ j, X i j * coef j) * sw i * (b + ∑ j, X i j * coef j +
      y i / Real.exp (b + ∑ j, X i j * coef j) - 1 - ∑ j, X i j * coef j) =
      b * (Real.exp (b + ∑ j, X i j * coef j) * sw i) + _
    have he : Real.exp (b + ∑ j, X i j * coef j) ≠ 0 := (Real.exp_pos _).ne'
    generalize Real.exp (b + ∑ j, X i j * coef j) = E at he ⊢
    field_simp
    ring
  rw [cdIntercept, if_pos hfi, div_eq_iff hW.ne', e]
  constructor <;> intro h <;> linarith

/-- The weighted objective in terms of its smooth part. -/
theorem enet_one (X : Fin n → Fin p → ℝ) (y sw : Fin n → ℝ) (alpha l1 b : ℝ) (coef : Fin p → ℝ) :
    enetObj X y sw alpha l1 (fun _ => 1) b coef =
      smoothLoss X y sw (alpha * (1 - l1)) b coef + alpha * l1 * ∑ j, |coef j| := by
  unfold enetObj smoothLoss
  simp only [one_mul]
  ring

/-- Convexity: with the optimality conditions, another point is worse by at least the curvature of the loss. -/
theorem enet_gap [NeZero n] {X : Fin n → Fin p → ℝ} {y sw : Fin n → ℝ} {alpha l1 b : ℝ} (hl : 0 ≤ alpha)
    (h1 : l1 ≤ 1) {coef : Fin p → ℝ} {b' : ℝ} {coef' : Fin p → ℝ}
    (h0 : (b' - b) * ∑ i, sw i * (y i - Real.exp (b + ∑ j, X i j * coef j)) = 0)
    (h : ∀ j, slope X y sw (alpha * (1 - l1)) coef b j * (coef' j - coef j) ≤
      alpha * l1 * |coef' j| - alpha * l1 * |coef j|) :
    enetObj X y sw alpha l1 (fun _ => 1) b coef +
        1 / n * ∑ i, sw i * (Real.exp (b' + ∑ j, X i j * coef' j) - Real.exp (b + ∑ j, X i j * coef j) -
          Real.exp (b + ∑ j, X i j * coef j) * (b' + ∑ j, X i j * coef' j - (b + ∑ j, X i j * coef j))) ≤
      enetObj X y sw alpha l1 (fun _ => 1) b' coef' := by
  set r : Fin n → ℝ := fun i => sw i * (y i - Real.exp (b + ∑ j, X i j * coef j)) with hr
  have e1 : ∑ i, sw i * (Real.exp (b' + ∑ j, X i j * coef' j) - Real.exp (b + ∑ j, X i j * coef j) -
          Real.exp (b + ∑ j, X i j * coef j) * (b' + ∑ j, X i j * coef' j - (b + ∑ j, X i j * coef j))) =
      ∑ i, sw i * (Real.exp (b' + ∑ j, X i j * coef' j) - y i * (b' + ∑ j, X i j * coef' j)) -
      ∑ i, sw i * (Real.exp (b + ∑ j, X i j * coef j) - y i * (b + ∑ j, X i j * coef j)) +
      ∑ j, (∑ i, X i j * r i) * (coef' j - coef j) := by
    rw [← Verif.Grid.sum_cross]
    have : ∀ i, r i * ∑ j, X i j * (coef' j - coef j) =
        r i * (b' + ∑ j, X i j * coef' j - (b + ∑ j, X i j * coef j)) - (b' - b) * r i := by
      intro i
      simp only [mul_sub, Finset.sum_sub_distrib]
      ring
    rw [Finset.sum_congr rfl fun i _ => this i, Finset.sum_sub_distrib, ← Finset.mul_sum, h0, sub_zero,
      ← Finset.sum_sub_distrib, ← Finset.sum_add_distrib]
    refine Finset.sum_congr rfl fun i _ => ?_
    simp only [hr]
    ring
  have h2 : ∀ j, (∑ i, X i j * r i) / n * (coef' j - coef j) ≤
      (alpha * l1 * |coef' j| + alpha * (1 - l1) / 2 * coef' j ^ 2) -
        (alpha * l1 * |coef j| + alpha * (1 - l1) / 2 * coef j ^ 2) := by
    intro j
    have h5 := h j
    have h6 : 0 ≤ alpha * (1 - l1) * (coef' j - coef j) ^ 2 :=
      mul_nonneg (mul_nonneg hl (by linarith)) (sq_nonneg _)
    unfold slope at h5
    nlinarith
  have h3 := Finset.sum_le_sum fun j (_ : j ∈ Finset.univ) => h2 j
  have e2 : ∑ j, (∑ i, X i j * r i) / n * (coef' j - coef j) =
      (1 / n) * ∑ j, (∑ i, X i j * r i) * (coef' j - coef j) := by
    rw [Finset.mul_sum]; exact Finset.sum_congr rfl fun j _ => by ring
  rw [e2, Finset.sum_sub_distrib, Finset.sum_add_distrib, Finset.sum_add_distrib, ← Finset.mul_sum,
    ← Finset.mul_sum, ← Finset.mul_sum, ← Finset.mul_sum] at h3
  rw [e1, enet_one, enet_one]
  unfold smoothLoss
  rw [mul_add, mul_sub]
  linarith

/-- The curvature is not negative. -/
theorem curv_nonneg (u v : ℝ) : 0 ≤ Real.exp v - Real.exp u - Real.exp u * (v - u) := by
  have h2 := Real.add_one_le_exp (v - u)
  have h3 : Real.exp v = Real.exp u * Real.exp (v - u) := by
    rw [← Real.exp_add]; congr 1; ring
  nlinarith [Real.exp_pos u]

theorem curv_pos {u v : ℝ} (h : v ≠ u) : 0 < Real.exp v - Real.exp u - Real.exp u * (v - u) := by
  have h2 := Real.add_one_lt_exp (sub_ne_zero.2 h)
  have h3 : Real.exp v = Real.exp u * Real.exp (v - u) := by
    rw [← Real.exp_add]; congr 1; ring
  nlinarith [Real.exp_pos u]

/-- At a minimiser the slope is a subgradient. -/
theorem slope_of_min [NeZero n] {X : Fin n → Fin p → ℝ} {y sw : Fin n → ℝ} {alpha l1 b : ℝ} (hl : 0 ≤ alpha)
    (h0 : 0 ≤ l1) {coef : Fin p → ℝ} (j : Fin p)
    (hm : ∀ coef', enetObj X y sw alpha l1 (fun _ => 1) b coef ≤ enetObj X y sw alpha l1 (fun _ => 1) b coef')
    (v : ℝ) :
    slope X y sw (alpha * (1 - l1)) coef b j * (v - coef j) ≤ alpha * l1 * |v| - alpha * l1 * |coef j| := by
  have hd := loss_line X y sw (alpha * (1 - l1)) coef (fun k => if k = j then 1 else 0) b 0
  rw [grad_dir] at hd
  have e0 : ∑ k, (-(∑ i, X i k * (sw i * (y i - Real.exp (b + ∑ j, X i j * coef j)))) / n +
      alpha * (1 - l1) * coef k) * (if k = j then (1 : ℝ) else 0) = - slope X y sw (alpha * (1 - l1)) coef b j := by
    simp only [mul_ite, mul_one, mul_zero, Finset.sum_ite_eq', Finset.mem_univ, if_true, slope]
    ring
  rw [e0, mul_zero, add_zero] at hd
  have hd' := HasDerivAt.comp_sub_const (x := coef j) (coef j) (by rw [sub_self]; exact hd)
  have e1 : ∀ t : ℝ, (fun k => coef k + (t - coef j) * (if k = j then (1 : ℝ) else 0)) = Function.update coef j t := by
    intro t
    funext k
    by_cases hk : k = j
    · subst hk; simp
    · rw [Function.update_of_ne hk, if_neg hk]; ring
  have hF : HasDerivAt (fun t : ℝ => smoothLoss X y sw (alpha * (1 - l1)) b (Function.update coef j t))
      (- slope X y sw (alpha * (1 - l1)) coef b j) (coef j) := by
    refine hd'.congr_deriv rfl |>.congr_of_eventuallyEq (Filter.Eventually.of_forall fun t => ?_)
    simp only [mul_zero, add_zero]
    rw [e1]
  have hs := Verif.Lbfgs.zero_of_min (mul_nonneg hl h0) hF fun t => by
    have := hm (Function.update coef j t)
    rw [enet_one, enet_one, sum_update (f := fun x => |x|) coef j t] at this
    have h2 := sum_update (f := fun x => |x|) coef j (coef j)
    rw [Function.update_eq_self] at h2 ⊢
    rw [h2, mul_add, mul_add] at this
    linarith
  have := hs v
  linarith

/-- At a minimiser over the intercept the weighted residuals sum to zero. -/
theorem resid_of_min [NeZero n] {X : Fin n → Fin p → ℝ} {y sw : Fin n → ℝ} {alpha l1 b : ℝ} {coef : Fin p → ℝ}
    (hm : ∀ b', enetObj X y sw alpha l1 (fun _ => 1) b coef ≤ enetObj X y sw alpha l1 (fun _ => 1) b' coef) :
    ∑ i, sw i * (y i - Real.exp (b + ∑ j, X i j * coef j)) = 0 := by
  have hn : (n : ℝ) ≠ 0 := by exact_mod_cast NeZero.ne n
  have hd := loss_line X y sw (alpha * (1 - l1)) coef (fun _ => 0) b 1
  rw [grad_dir] at hd
  simp only [mul_zero, Finset.sum_const_zero, zero_add, mul_one, add_zero] at hd
  have hloc : IsLocalMin (fun t : ℝ => smoothLoss X y sw (alpha * (1 - l1)) (b + t) coef) 0 := by
    refine Filter.Eventually.of_forall fun t => ?_
    have := hm (b + t)
    rw [enet_one, enet_one] at this
    simp only [add_zero]
    linarith
  have := hloc.hasDerivAt_eq_zero hd
  rw [neg_eq_zero, div_eq_zero_iff] at this
  exact this.resolve_right hn

/-- The denominator of an update is positive if a row that counts has the feature, or if there is an L2 penalty. -/
theorem den_posW [NeZero n] (pen : Pen) (hl : 0 ≤ pen.alpha) (h1 : pen.l1 ≤ 1) (X : Fin n → Fin p → ℝ)
    (y sw : Fin n → ℝ) (hsw : ∀ i, 0 ≤ sw i) (coef : Fin p → ℝ) (b : ℝ) (j : Fin p)
    (hX : (∃ i, 0 < sw i ∧ X i j ≠ 0) ∨ 0 < pen.alpha * (1 - pen.l1)) :
    0 < denUpdate X (weightedResponse X y sw coef b).1 j + pen.alpha * (1 - pen.l1) := by
  have hn : (0 : ℝ) < n := by exact_mod_cast Nat.pos_of_ne_zero (NeZero.ne n)
  have h2 : 0 ≤ pen.alpha * (1 - pen.l1) := mul_nonneg hl (by linarith)
  have h3 : ∀ i, 0 ≤ (weightedResponse X y sw coef b).1 i * X i j ^ 2 := fun i =>
    mul_nonneg (mul_nonneg (Real.exp_pos _).le (hsw i)) (sq_nonneg _)
  have h4 : 0 ≤ denUpdate X (weightedResponse X y sw coef b).1 j :=
    div_nonneg (Finset.sum_nonneg fun i _ => h3 i) hn.le
  rcases hX with ⟨i, hi, hx⟩ | h
  · have : 0 < denUpdate X (weightedResponse X y sw coef b).1 j := by
      refine div_pos (Finset.sum_pos' (fun i _ => h3 i) ⟨i, Finset.mem_univ _, ?_⟩) hn
      exact mul_pos (mul_pos (Real.exp_pos _) hi) (by positivity)
    linarith
  · linarith

/-- A full sweep changes nothing exactly under the optimality conditions. -/
theorem sweep_fix_iff [NeZero n] (pen : Pen) (hl : 0 ≤ pen.alpha) (h0 : 0 ≤ pen.l1) (h1 : pen.l1 ≤ 1)
    (X : Fin n → Fin p → ℝ) (y sw : Fin n → ℝ) (hsw : ∀ i, 0 ≤ sw i) (hpos : ∃ i, 0 < sw i)
    (hX : ∀ j, (∃ i, 0 < sw i ∧ X i j ≠ 0) ∨ 0 < pen.alpha * (1 - pen.l1)) (coef : Fin p → ℝ) (b : ℝ) :
    cdSweep pen X (weightedResponse X y sw coef b).1 (weightedResponse X y sw coef b).2 (List.finRange p) coef =
        (coef, b) ↔
      ((pen.fi = true → ∑ i, sw i * (y i - Real.exp (b + ∑ j, X i j * coef j)) = 0) ∧
        (pen.fi = false → b = 0)) ∧
      ∀ j v, slope X y sw (pen.alpha * (1 - pen.l1)) coef b j * (v - coef j) ≤
        pen.alpha * pen.l1 * |v| - pen.alpha * pen.l1 * |coef j| := by
  have hI : cdIntercept pen X (weightedResponse X y sw coef b).1 (weightedResponse X y sw coef b).2 coef = b ↔
      ((pen.fi = true → ∑ i, sw i * (y i - Real.exp (b + ∑ j, X i j * coef j)) = 0) ∧
        (pen.fi = false → b = 0)) := by
    cases hfi : pen.fi with
    | true => rw [intercept_fix_iff pen hfi X y sw hsw hpos]; simp
    | false => simp [cdIntercept, hfi, eq_comm]
  have hC : ∀ j, cdCoord pen X (weightedResponse X y sw coef b).1 (weightedResponse X y sw coef b).2 b coef j = coef ↔
      ∀ v, slope X y sw (pen.alpha * (1 - pen.l1)) coef b j * (v - coef j) ≤
        pen.alpha * pen.l1 * |v| - pen.alpha * pen.l1 * |coef j| := fun j =>
    coord_fix_iff pen hl h0 X y sw b coef j (den_posW pen hl h1 X y sw hsw coef b j (hX j))
  rw [← hI]
  constructor
  · intro h
    have hb := congrArg Prod.snd h
    have hf := congrArg Prod.fst h
    simp only [cdSweep] at hb hf
    rw [hb] at hf
    exact ⟨hb, fun j => (hC j).1 (fold_fixed _ _ _ _ _ _ (List.nodup_finRange p) _ hf j (List.mem_finRange j))⟩
  · rintro ⟨hb, h⟩
    simp only [cdSweep]
    rw [hb, fold_fixed_of _ _ _ _ _ _ _ fun j _ => (hC j).2 (h j)]

/-! ### Loops on data that agree where it counts -/

theorem foldl_congr_coord {pen pen' : Pen} {X X' : Fin n → Fin p → ℝ} {w w' z z' : Fin n → ℝ} {b b' : ℝ}
    (h : ∀ coef j, cdCoord pen X w z b coef j = cdCoord pen' X' w' z' b' coef j) (l : List (Fin p)) (coef : Fin p → ℝ) :
    l.foldl (cdCoord pen X w z b) coef = l.foldl (cdCoord pen' X' w' z' b') coef := by
  induction l generalizing coef with
  | nil => rfl
  | cons k js ih => rw [List.foldl_cons, List.foldl_cons, h, ih]

/-- Two loops whose sweeps agree agree. -/
theorem cdLoopW_congr {pen pen' : Pen} {tol : ℝ} {X X' : Fin n → Fin p → ℝ} {y y' sw sw' : Fin n → ℝ}
    (h : ∀ l coef b, cdSweep pen X (weightedResponse X y sw coef b).1 (weightedResponse X y sw coef b).2 l coef =
      cdSweep pen' X' (weightedResponse X' y' sw' coef b).1 (weightedResponse X' y' sw' coef b).2 l coef)
    (fuel : Nat) (active : Active p) (coef : Fin p → ℝ) (b : ℝ) :
    cdLoopW pen tol X y sw fuel active coef b = cdLoopW pen' tol X' y' sw' fuel active coef b := by
  induction fuel generalizing active coef b with
  | zero => rfl
  | succ fuel ih =>
    have hs : sweepActive pen X (weightedResponse X y sw coef b).1 (weightedResponse X y sw coef b).2 active coef =
        sweepActive pen' X' (weightedResponse X' y' sw' coef b).1 (weightedResponse X' y' sw' coef b).2 active coef := by
      cases active <;> simp only [sweepActive, h]
    simp only [cdLoopW]
    rw [hs]
    split
    · rfl
    · split
      · rfl
      · split
        · rfl
        · exact ih _ _ _

theorem sweep_ignored (pen : Pen) (X X' : Fin n → Fin p → ℝ) (y y' sw : Fin n → ℝ)
    (h : ∀ i, sw i ≠ 0 → X i = X' i ∧ y i = y' i) (l : List (Fin p)) (coef : Fin p → ℝ) (b : ℝ) :
    cdSweep pen X (weightedResponse X y sw coef b).1 (weightedResponse X y sw coef b).2 l coef =
      cdSweep pen X' (weightedResponse X' y' sw coef b).1 (weightedResponse X' y' sw coef b).2 l coef := by
  have hw : ∀ i, (weightedResponse X y sw coef b).1 i = (weightedResponse X' y' sw coef b).1 i := by
    intro i
    by_cases hi : sw i = 0
    · simp [weightedResponse, hi]
    · simp [weightedResponse, adjustedResponse, (h i hi).1]
  have key : ∀ f : ℝ → (Fin p → ℝ) → ℝ, ∀ i,
      (weightedResponse X y sw coef b).1 i * f ((weightedResponse X y sw coef b).2 i) (X i) =
      (weightedResponse X' y' sw coef b).1 i * f ((weightedResponse X' y' sw coef b).2 i) (X' i) := by
    intro f i
    by_cases hi : sw i = 0
    · simp [weightedResponse, hi]
    · simp [weightedResponse, adjustedResponse, (h i hi).1, (h i hi).2]
  have hI : cdIntercept pen X (weightedResponse X y sw coef b).1 (weightedResponse X y sw coef b).2 coef =
      cdIntercept pen X' (weightedResponse X' y' sw coef b).1 (weightedResponse X' y' sw coef b).2 coef := by
    unfold cdIntercept
    rw [Finset.sum_congr rfl fun i _ => key (fun z x => z - dot x coef) i, Finset.sum_congr rfl fun i _ => hw i]
  unfold cdSweep
  rw [hI]
  refine Prod.ext (foldl_congr_coord (fun c j => ?_) l coef) rfl
  unfold cdCoord numUpdate denUpdate
  rw [Finset.sum_congr rfl fun i _ => key (fun z x => x j * (z - (_ + dot x fun k => c k * (if k = j then 0 else 1)))) i,
    Finset.sum_congr rfl fun i _ => key (fun _ x => x j ^ 2) i]

theorem soft_mul {s x t : ℝ} (hs : 0 < s) : softThreshold (s * x) (s * t) = s * softThreshold x t := by
  have h1 : sign (s * x) = sign x := by
    unfold sign
    have h2 : s * x < 0 ↔ x < 0 :=
      ⟨fun h => by by_contra hx; nlinarith [not_lt.1 hx], fun h => mul_neg_of_pos_of_neg hs h⟩
    simp only [mul_pos_iff_of_pos_left hs, h2]
  unfold softThreshold
  rw [h1, abs_mul, abs_of_pos hs]
  simp only [gt_iff_lt, mul_lt_mul_iff_right₀ hs]
  ring

theorem sweep_scale (pen : Pen) {s : ℝ} (hs : 0 < s) (X : Fin n → Fin p → ℝ) (y sw : Fin n → ℝ)
    (l : List (Fin p)) (coef : Fin p → ℝ) (b : ℝ) :
    cdSweep { pen with alpha := s * pen.alpha } X (weightedResponse X y (fun i => s * sw i) coef b).1
        (weightedResponse X y (fun i => s * sw i) coef b).2 l coef =
      cdSweep pen X (weightedResponse X y sw coef b).1 (weightedResponse X y sw coef b).2 l coef := by
  have hw : ∀ i, (weightedResponse X y (fun i => s * sw i) coef b).1 i = s * (weightedResponse X y sw coef b).1 i := by
    intro i; simp only [weightedResponse]; ring
  have hz : (weightedResponse X y (fun i => s * sw i) coef b).2 = (weightedResponse X y sw coef b).2 := rfl
  have hI : cdIntercept { pen with alpha := s * pen.alpha } X (weightedResponse X y (fun i => s * sw i) coef b).1
      (weightedResponse X y (fun i => s * sw i) coef b).2 coef =
      cdIntercept pen X (weightedResponse X y sw coef b).1 (weightedResponse X y sw coef b).2 coef := by
    unfold cdIntercept
    simp only [hw, hz, mul_assoc, ← Finset.mul_sum]
    rw [mul_div_mul_left _ _ hs.ne']
  unfold cdSweep
  rw [hI]
  refine Prod.ext (foldl_congr_coord (fun c j => ?_) l coef) rfl
  unfold cdCoord numUpdate denUpdate
  simp only [hw, hz, mul_assoc, ← Finset.mul_sum]
  rw [mul_div_assoc, mul_left_comm pen.l1 s, soft_mul hs, mul_div_assoc s (∑ i, (weightedResponse X y sw coef b).1 i * X i j ^ 2), ← mul_add,
    mul_div_mul_left _ _ hs.ne']

/-- Unit weights. -/
theorem cdLoopW_one (pen : Pen) (tol : ℝ) (X : Fin n → Fin p → ℝ) (y : Fin n → ℝ) (fuel : Nat) (active : Active p)
    (coef : Fin p → ℝ) (b : ℝ) :
    cdLoopW pen tol X y (fun _ => 1) fuel active coef b = cdLoop pen tol X y fuel active coef b := by
  induction fuel generalizing active coef b with
  | zero => rfl
  | succ fuel ih =>
    have hs : weightedResponse X y (fun _ => 1) coef b = adjustedResponse X y coef b := by
      simp [weightedResponse]
    simp only [cdLoopW, cdLoop, hs, ih]
    cases sweepActive pen X (adjustedResponse X y coef b).1 (adjustedResponse X y coef b).2 active coef <;> rfl

end Verif.Poisson
