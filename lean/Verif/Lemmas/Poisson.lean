import Verif.Model.Poisson
import Verif.Spec.Poisson
import Verif.Lemmas.Grid
import Mathlib.Analysis.SpecialFunctions.ExpDeriv
import Mathlib.Analysis.Calculus.Deriv.Pow
/-! Lemmas on the Poisson solver. -/
namespace Verif.Poisson
open Verif.Py Verif.Scaling Verif.Spec.Grid Verif.Spec.Poisson
variable {n p : Nat}

theorem soft_of_gt {x t : ℝ} (ht : 0 ≤ t) (h : t < x) : softThreshold x t = x - t := by
  have hx : 0 < x := by linarith
  simp [softThreshold, sign, hx, abs_of_pos hx, h]

theorem soft_of_lt {x t : ℝ} (ht : 0 ≤ t) (h : x < -t) : softThreshold x t = x + t := by
  have hx : x < 0 := by linarith
  have h1 : t < -x := by linarith
  simp [softThreshold, sign, hx, abs_of_neg hx, h1, not_lt.2 hx.le, add_comm]

theorem soft_of_le {x t : ℝ} (h : |x| ≤ t) : softThreshold x t = 0 := by
  simp [softThreshold, not_lt.2 h]

/-- Strong minimality. -/
theorem soft_prox {x t : ℝ} (ht : 0 ≤ t) (b : ℝ) :
    proxObj x t (softThreshold x t) + (b - softThreshold x t) ^ 2 / 2 ≤ proxObj x t b := by
  unfold proxObj
  rcases lt_or_ge t x with h | h
  · rw [soft_of_gt ht h, abs_of_pos (by linarith : 0 < x - t)]
    nlinarith [le_abs_self b]
  · rcases lt_or_ge x (-t) with h' | h'
    · rw [soft_of_lt ht h', abs_of_neg (by linarith : x + t < 0)]
      nlinarith [neg_abs_le b]
    · have hx : |x| ≤ t := abs_le.2 ⟨h', h⟩
      rw [soft_of_le hx, abs_zero]
      have : x * b ≤ t * |b| := by
        calc x * b ≤ |x * b| := le_abs_self _
          _ = |x| * |b| := abs_mul _ _
          _ ≤ _ := mul_le_mul_of_nonneg_right hx (abs_nonneg _)
      nlinarith

theorem dot_update (x : Fin p → ℝ) (coef : Fin p → ℝ) (j : Fin p) (v : ℝ) :
    ∑ k, x k * Function.update coef j v k =
      dot x (fun k => coef k * (if k = j then 0 else 1)) + x j * v := by
  unfold dot
  rw [← Finset.add_sum_erase _ _ (Finset.mem_univ j),
    ← Finset.add_sum_erase _ (fun k => x k * (coef k * (if k = j then 0 else 1)))
      (Finset.mem_univ j)]
  simp only [Function.update_self, if_true, mul_zero, zero_add]
  rw [add_comm]
  congr 1
  refine Finset.sum_congr rfl fun k hk => ?_
  have hk : k ≠ j := Finset.ne_of_mem_erase hk
  rw [Function.update_of_ne hk, if_neg hk, mul_one]

theorem sum_update {f : ℝ → ℝ} (coef : Fin p → ℝ) (j : Fin p) (v : ℝ) :
    ∑ k, f (Function.update coef j v k) = f v + ∑ k ∈ Finset.univ.erase j, f (coef k) := by
  rw [← Finset.add_sum_erase _ _ (Finset.mem_univ j)]
  simp only [Function.update_self]
  congr 1
  refine Finset.sum_congr rfl fun k hk => ?_
  rw [Function.update_of_ne (Finset.ne_of_mem_erase hk)]

/-- The surrogate as a function of one coordinate. -/
theorem surrogate_update [NeZero n] (X : Fin n → Fin p → ℝ) (w z : Fin n → ℝ) (lam alpha b : ℝ)
    (coef : Fin p → ℝ) (j : Fin p) : ∃ C, ∀ v,
    surrogate X w z lam alpha b (Function.update coef j v) =
      C + ((denUpdate X w j + lam * (1 - alpha)) / 2 * v ^ 2 - numUpdate X w z b coef j * v +
        alpha * lam * |v|) := by
  have hn : (n : ℝ) ≠ 0 := by exact_mod_cast NeZero.ne n
  set e : Fin n → ℝ := fun i => z i - (b + dot (X i) fun k => coef k * (if k = j then 0 else 1))
    with he
  refine ⟨1 / (2 * n) * ∑ i, w i * e i ^ 2 + lam * (alpha * ∑ k ∈ Finset.univ.erase j, |coef k| +
    (1 - alpha) / 2 * ∑ k ∈ Finset.univ.erase j, coef k ^ 2), fun v => ?_⟩
  unfold surrogate
  have h1 : ∑ i, w i * (z i - b - ∑ k, X i k * Function.update coef j v k) ^ 2 =
      ∑ i, w i * e i ^ 2 - 2 * v * ∑ i, w i * (X i j * e i) + v ^ 2 * ∑ i, w i * X i j ^ 2 := by
    rw [Finset.mul_sum, Finset.mul_sum, ← Finset.sum_sub_distrib, ← Finset.sum_add_distrib]
    refine Finset.sum_congr rfl fun i _ => ?_
    rw [dot_update]
    simp only [he]
    ring
  rw [h1, sum_update (f := fun x => |x|), sum_update (f := fun x => x ^ 2)]
  have h2 : numUpdate X w z b coef j = (∑ i, w i * (X i j * e i)) / n := rfl
  rw [h2]
  simp only [denUpdate]
  field_simp
  ring

theorem soft_scaled {D num t : ℝ} (hD : 0 < D) (ht : 0 ≤ t) (v : ℝ) :
    D / 2 * (softThreshold num t / D) ^ 2 - num * (softThreshold num t / D) +
        t * |softThreshold num t / D| ≤ D / 2 * v ^ 2 - num * v + t * |v| := by
  have h := soft_prox ht (D * v) (x := num)
  have h0 := sq_nonneg (D * v - softThreshold num t)
  unfold proxObj at h
  rw [abs_mul, abs_of_pos hD] at h
  rw [abs_div, abs_of_pos hD]
  have h1 : D * (D / 2 * (softThreshold num t / D) ^ 2 - num * (softThreshold num t / D) +
        t * (|softThreshold num t| / D)) = (softThreshold num t - num) ^ 2 / 2 +
        t * |softThreshold num t| - num ^ 2 / 2 := by
    field_simp
    ring
  have h2 : D * (D / 2 * v ^ 2 - num * v + t * |v|) =
      (D * v - num) ^ 2 / 2 + t * (D * |v|) - num ^ 2 / 2 := by ring
  refine le_of_mul_le_mul_left ?_ hD
  rw [h1, h2]
  linarith

theorem coord_min [NeZero n] (pen : Pen) (hl : 0 ≤ pen.alpha) (h1 : 0 ≤ pen.l1)
    (X : Fin n → Fin p → ℝ) (w z : Fin n → ℝ) (b : ℝ)
    (coef : Fin p → ℝ) (j : Fin p) (hD : 0 < denUpdate X w j + pen.alpha * (1 - pen.l1)) (v : ℝ) :
    surrogate X w z pen.alpha pen.l1 b (cdCoord pen X w z b coef j) ≤
      surrogate X w z pen.alpha pen.l1 b (Function.update coef j v) := by
  obtain ⟨C, hC⟩ := surrogate_update X w z pen.alpha pen.l1 b coef j
  rw [cdCoord, hC, hC]
  have := soft_scaled (num := numUpdate X w z b coef j) hD (mul_nonneg h1 hl) v
  linarith

theorem cdCoord_le [NeZero n] (pen : Pen) (hl : 0 ≤ pen.alpha) (h1 : 0 ≤ pen.l1)
    (X : Fin n → Fin p → ℝ) (w z : Fin n → ℝ) (b : ℝ)
    (coef : Fin p → ℝ) (j : Fin p) (hD : 0 < denUpdate X w j + pen.alpha * (1 - pen.l1)) :
    surrogate X w z pen.alpha pen.l1 b (cdCoord pen X w z b coef j) ≤
      surrogate X w z pen.alpha pen.l1 b coef := by
  have := coord_min pen hl h1 X w z b coef j hD (coef j)
  rwa [Function.update_eq_self] at this

theorem fold_le [NeZero n] (pen : Pen) (hl : 0 ≤ pen.alpha) (h1 : 0 ≤ pen.l1)
    (X : Fin n → Fin p → ℝ) (w z : Fin n → ℝ) (b : ℝ) (active : List (Fin p))
    (hD : ∀ j ∈ active, 0 < denUpdate X w j + pen.alpha * (1 - pen.l1)) (coef : Fin p → ℝ) :
    surrogate X w z pen.alpha pen.l1 b (active.foldl (cdCoord pen X w z b) coef) ≤
      surrogate X w z pen.alpha pen.l1 b coef := by
  induction active generalizing coef with
  | nil => exact le_rfl
  | cons j js ih =>
    exact (ih (fun k hk => hD k (List.mem_cons_of_mem _ hk)) _).trans
      (cdCoord_le pen hl h1 X w z b coef j (hD j (by simp)))

theorem fold_inactive (pen : Pen) (X : Fin n → Fin p → ℝ) (w z : Fin n → ℝ) (b : ℝ)
    (active : List (Fin p)) (coef : Fin p → ℝ) (j : Fin p) (hj : j ∉ active) :
    active.foldl (cdCoord pen X w z b) coef j = coef j := by
  induction active generalizing coef with
  | nil => rfl
  | cons k js ih =>
    simp only [List.foldl_cons]
    rw [ih _ fun h => hj (List.mem_cons_of_mem _ h)]
    exact Function.update_of_ne (fun h => hj (by simp [h])) _ _

theorem intercept_le [NeZero n] (pen : Pen) (hfi : pen.fi = true) (X : Fin n → Fin p → ℝ)
    (w z : Fin n → ℝ) (hw : 0 < ∑ i, w i) (coef : Fin p → ℝ) (b : ℝ) :
    surrogate X w z pen.alpha pen.l1 (cdIntercept pen X w z coef) coef ≤
      surrogate X w z pen.alpha pen.l1 b coef := by
  have hn : (0 : ℝ) < n := by exact_mod_cast Nat.pos_of_ne_zero (NeZero.ne n)
  unfold surrogate
  gcongr ?_ * ?_ + _
  set r : Fin n → ℝ := fun i => z i - dot (X i) coef with hr
  have hb0 : cdIntercept pen X w z coef = (∑ i, w i * r i) / ∑ i, w i := by
    simp [cdIntercept, hfi, hr]
  set b0 := cdIntercept pen X w z coef
  have h0 : ∑ i, w i * (r i - b0) = 0 := by
    simp only [mul_sub, Finset.sum_sub_distrib, ← Finset.sum_mul]
    rw [hb0]
    field_simp
    ring
  have h1 : ∀ i, w i * (z i - b - ∑ j, X i j * coef j) ^ 2 =
      w i * (z i - b0 - ∑ j, X i j * coef j) ^ 2 + 2 * (b0 - b) * (w i * (r i - b0)) +
        (b0 - b) ^ 2 * w i := by
    intro i; simp only [hr, dot]; ring
  rw [Finset.sum_congr rfl fun i _ => h1 i, Finset.sum_add_distrib, Finset.sum_add_distrib,
    ← Finset.mul_sum, h0, ← Finset.mul_sum]
  have : 0 ≤ (b0 - b) ^ 2 * ∑ i, w i := mul_nonneg (sq_nonneg _) hw.le
  linarith

theorem den_pos [NeZero n] (pen : Pen) (hl : 0 ≤ pen.alpha) (h1 : pen.l1 ≤ 1)
    (X : Fin n → Fin p → ℝ) (w : Fin n → ℝ) (hw : ∀ i, 0 < w i) (j : Fin p)
    (h : (∃ i, X i j ≠ 0) ∨ 0 < pen.alpha * (1 - pen.l1)) :
    0 < denUpdate X w j + pen.alpha * (1 - pen.l1) := by
  have hn : (0 : ℝ) < n := by exact_mod_cast Nat.pos_of_ne_zero (NeZero.ne n)
  have h2 : 0 ≤ pen.alpha * (1 - pen.l1) := mul_nonneg hl (by linarith)
  have h3 : ∀ i, 0 ≤ w i * X i j ^ 2 := fun i => mul_nonneg (hw i).le (sq_nonneg _)
  have h4 : 0 ≤ denUpdate X w j := div_nonneg (Finset.sum_nonneg fun i _ => h3 i) hn.le
  rcases h with ⟨i, hi⟩ | h
  · have : 0 < denUpdate X w j := by
      refine div_pos (Finset.sum_pos' (fun i _ => h3 i) ⟨i, Finset.mem_univ i, ?_⟩) hn
      exact mul_pos (hw i) (by positivity)
    linarith
  · linarith

theorem soft_subgrad {x t : ℝ} (ht : 0 ≤ t) (u : ℝ) :
    (x - softThreshold x t) * (u - softThreshold x t) ≤ t * |u| - t * |softThreshold x t| := by
  rcases lt_or_ge t x with h | h
  · rw [soft_of_gt ht h, abs_of_pos (by linarith : 0 < x - t)]
    nlinarith [le_abs_self u]
  · rcases lt_or_ge x (-t) with h' | h'
    · rw [soft_of_lt ht h', abs_of_neg (by linarith : x + t < 0)]
      nlinarith [neg_abs_le u]
    · have hx : |x| ≤ t := abs_le.2 ⟨h', h⟩
      rw [soft_of_le hx, abs_zero]
      have : x * u ≤ t * |u| := by
        calc x * u ≤ |x * u| := le_abs_self _
          _ = |x| * |u| := abs_mul _ _
          _ ≤ _ := mul_le_mul_of_nonneg_right hx (abs_nonneg _)
      linarith

theorem fold_fixed (pen : Pen) (X : Fin n → Fin p → ℝ) (w z : Fin n → ℝ) (b : ℝ)
    (active : List (Fin p)) (hnd : active.Nodup) (coef : Fin p → ℝ)
    (h : active.foldl (cdCoord pen X w z b) coef = coef) :
    ∀ j ∈ active, cdCoord pen X w z b coef j = coef := by
  induction active with
  | nil => simp
  | cons k js ih =>
    have hk : k ∉ js := (List.nodup_cons.1 hnd).1
    have h1 : cdCoord pen X w z b coef k = coef := by
      have h2 := fold_inactive pen X w z b js (cdCoord pen X w z b coef k) k hk
      have h3 : cdCoord pen X w z b coef k k = coef k := by
        rw [← h2]; exact congrFun h k
      funext l
      by_cases hl : l = k
      · rw [hl, h3]
      · exact Function.update_of_ne hl _ _
    intro j hj
    rcases List.mem_cons.1 hj with rfl | hj
    · exact h1
    · refine ih (List.nodup_cons.1 hnd).2 ?_ j hj
      rw [List.foldl_cons, h1] at h
      exact h

/-- First-order conditions are sufficient for the Poisson objective (convexity of `exp`). -/
theorem pois_global [NeZero n] {X : Fin n → Fin p → ℝ} {y : Fin n → ℝ} {lam alpha b0 : ℝ}
    (hl : 0 ≤ lam) (ha1 : alpha ≤ 1) {b : Fin p → ℝ} {b0' : ℝ} {b' : Fin p → ℝ}
    (h0 : (b0' - b0) * ∑ i, (y i - Real.exp (b0 + ∑ j, X i j * b j)) = 0)
    (h : ∀ j, ((∑ i, X i j * (y i - Real.exp (b0 + ∑ j, X i j * b j))) / n -
        lam * (1 - alpha) * b j) * (b' j - b j) ≤ lam * alpha * |b' j| - lam * alpha * |b j|) :
    poisObj X y lam alpha b0 b ≤ poisObj X y lam alpha b0' b' := by
  have hn : (0 : ℝ) < n := by exact_mod_cast Nat.pos_of_ne_zero (NeZero.ne n)
  set η : Fin n → ℝ := fun i => b0 + ∑ j, X i j * b j with hη
  set η' : Fin n → ℝ := fun i => b0' + ∑ j, X i j * b' j with hη'
  have h1 : ∀ i, -((y i - Real.exp (η i)) * (η' i - η i)) ≤
      (Real.exp (η' i) - y i * η' i) - (Real.exp (η i) - y i * η i) := by
    intro i
    have h2 := Real.add_one_le_exp (η' i - η i)
    have h3 : Real.exp (η' i) = Real.exp (η i) * Real.exp (η' i - η i) := by
      rw [← Real.exp_add]; congr 1; ring
    nlinarith [Real.exp_pos (η i)]
  have h2 := Finset.sum_le_sum fun i (_ : i ∈ Finset.univ) => h1 i
  rw [Finset.sum_sub_distrib, Finset.sum_neg_distrib] at h2
  have h3 : ∑ i, (y i - Real.exp (η i)) * (η' i - η i) =
      ∑ j, (∑ i, X i j * (y i - Real.exp (η i))) * (b' j - b j) := by
    rw [← Verif.Grid.sum_cross]
    have : ∀ i, (y i - Real.exp (η i)) * (η' i - η i) =
        (b0' - b0) * (y i - Real.exp (η i)) +
          (y i - Real.exp (η i)) * ∑ j, X i j * (b' j - b j) := by
      intro i
      simp only [hη, hη', mul_sub, Finset.sum_sub_distrib]
      ring
    rw [Finset.sum_congr rfl fun i _ => this i, Finset.sum_add_distrib, ← Finset.mul_sum, h0,
      zero_add]
  have h4 : ∀ j, (∑ i, X i j * (y i - Real.exp (η i))) / n * (b' j - b j) ≤
      lam * (alpha * |b' j| + (1 - alpha) / 2 * b' j ^ 2) -
        lam * (alpha * |b j| + (1 - alpha) / 2 * b j ^ 2) := by
    intro j
    have h5 := h j
    have h6 : 0 ≤ lam * (1 - alpha) * (b' j - b j) ^ 2 :=
      mul_nonneg (mul_nonneg hl (by linarith)) (sq_nonneg _)
    nlinarith
  have h5 := Finset.sum_le_sum fun j (_ : j ∈ Finset.univ) => h4 j
  have h6 : ∑ j, (∑ i, X i j * (y i - Real.exp (η i))) / n * (b' j - b j) =
      (1 / n) * ∑ j, (∑ i, X i j * (y i - Real.exp (η i))) * (b' j - b j) := by
    rw [Finset.mul_sum]; exact Finset.sum_congr rfl fun j _ => by ring
  rw [h6, ← h3, Finset.sum_sub_distrib, ← Finset.mul_sum, ← Finset.mul_sum,
    Finset.sum_add_distrib, Finset.sum_add_distrib, ← Finset.mul_sum, ← Finset.mul_sum,
    ← Finset.mul_sum, ← Finset.mul_sum] at h5
  have h7 := mul_le_mul_of_nonneg_left h2 (by positivity : (0 : ℝ) ≤ 1 / n)
  unfold poisObj
  change 1 / (n : ℝ) * ∑ i, (Real.exp (η i) - y i * η i) + _ ≤
    1 / (n : ℝ) * ∑ i, (Real.exp (η' i) - y i * η' i) + _
  rw [mul_neg, mul_sub] at h7
  linarith

/-- What a fixed point of one coordinate update says. -/
theorem coord_subgrad [NeZero n] (pen : Pen) (hl : 0 ≤ pen.alpha) (h1 : 0 ≤ pen.l1)
    (X : Fin n → Fin p → ℝ) (y : Fin n → ℝ) (b : ℝ) (coef : Fin p → ℝ) (j : Fin p)
    (hD : 0 < denUpdate X (adjustedResponse X y coef b).1 j + pen.alpha * (1 - pen.l1))
    (h : cdCoord pen X (adjustedResponse X y coef b).1 (adjustedResponse X y coef b).2 b coef j =
      coef) (v : ℝ) :
    ((∑ i, X i j * (y i - Real.exp (b + ∑ j, X i j * coef j))) / n -
        pen.alpha * (1 - pen.l1) * coef j) * (v - coef j) ≤
      pen.alpha * pen.l1 * |v| - pen.alpha * pen.l1 * |coef j| := by
  have hn : (0 : ℝ) < n := by exact_mod_cast Nat.pos_of_ne_zero (NeZero.ne n)
  set w := (adjustedResponse X y coef b).1 with hw
  set z := (adjustedResponse X y coef b).2 with hz
  set D := denUpdate X w j + pen.alpha * (1 - pen.l1) with hDd
  have h2 : softThreshold (numUpdate X w z b coef j) (pen.l1 * pen.alpha) = D * coef j := by
    have := congrFun h j
    rw [cdCoord, Function.update_self, div_eq_iff hD.ne'] at this
    rw [this, mul_comm]
  have h3 : numUpdate X w z b coef j =
      (∑ i, X i j * (y i - Real.exp (b + ∑ j, X i j * coef j))) / n + denUpdate X w j * coef j := by
    unfold numUpdate denUpdate
    rw [div_mul_eq_mul_div, ← add_div, Finset.sum_mul, ← Finset.sum_add_distrib]
    congr 1
    refine Finset.sum_congr rfl fun i _ => ?_
    have h4 := dot_update (X i) coef j (coef j)
    rw [Function.update_eq_self] at h4
    have hwi : w i = Real.exp (b + ∑ j, X i j * coef j) := rfl
    have hzi : z i = b + ∑ k, X i k * coef k + y i / w i - 1 := rfl
    rw [← hwi, hzi, h4]
    have : w i ≠ 0 := by rw [hwi]; exact (Real.exp_pos _).ne'
    field_simp
    ring
  have h4 := soft_subgrad (x := numUpdate X w z b coef j) (mul_nonneg h1 hl) (D * v)
  rw [h2, h3, abs_mul, abs_mul, abs_of_pos hD] at h4
  have h5 : ∀ a c : ℝ, D * a ≤ D * c → a ≤ c := fun a c h => le_of_mul_le_mul_left h hD
  apply h5
  rw [hDd] at h4 ⊢
  nlinarith

/-- A fixed point of a sweep over `active`, with the surrogate built at that point, minimises the
    Poisson objective among the points that agree with it outside `active`. -/
theorem sweep_fixed_optimal [NeZero n] (pen : Pen) (hl : 0 ≤ pen.alpha) (h1 : 0 ≤ pen.l1)
    (h1' : pen.l1 ≤ 1) (X : Fin n → Fin p → ℝ) (y : Fin n → ℝ) (active : List (Fin p))
    (hnd : active.Nodup)
    (hX : ∀ j ∈ active, (∃ i, X i j ≠ 0) ∨ 0 < pen.alpha * (1 - pen.l1))
    (coef : Fin p → ℝ) (b : ℝ)
    (hfix : cdSweep pen X (adjustedResponse X y coef b).1 (adjustedResponse X y coef b).2 active
      coef = (coef, b)) (b' : ℝ) (hb : pen.fi = false → b' = b)
    (coef' : Fin p → ℝ) (hc : ∀ j, j ∉ active → coef' j = coef j) :
    poisObj X y pen.alpha pen.l1 b coef ≤ poisObj X y pen.alpha pen.l1 b' coef' := by
  set w := (adjustedResponse X y coef b).1 with hw
  set z := (adjustedResponse X y coef b).2 with hz
  have hwi : ∀ i, w i = Real.exp (b + ∑ j, X i j * coef j) := fun i => rfl
  have hwpos : ∀ i, 0 < w i := fun i => by rw [hwi]; exact Real.exp_pos _
  have hb0 : cdIntercept pen X w z coef = b := congrArg Prod.snd hfix
  have hf : active.foldl (cdCoord pen X w z b) coef = coef := by
    have := congrArg Prod.fst hfix
    simp only [cdSweep, hb0] at this
    exact this
  refine pois_global hl h1' ?_ ?_
  · cases hfi : pen.fi with
    | false => rw [hb hfi, sub_self, zero_mul]
    | true =>
      have hs : 0 < ∑ i, w i :=
        Finset.sum_pos (fun i _ => hwpos i) ⟨0, Finset.mem_univ _⟩
      rw [cdIntercept, if_pos hfi, div_eq_iff hs.ne'] at hb0
      have : ∑ i, (y i - Real.exp (b + ∑ j, X i j * coef j)) = 0 := by
        have h3 : ∀ i, w i * (z i - dot (X i) coef) = b * w i + (y i - w i) := by
          intro i
          have hzi : z i = b + dot (X i) coef + y i / w i - 1 := rfl
          rw [hzi]
          have := (hwpos i).ne'
          field_simp
          ring
        rw [Finset.sum_congr rfl fun i _ => h3 i, Finset.sum_add_distrib, ← Finset.mul_sum] at hb0
        simp only [← hwi]
        linarith
      rw [this, mul_zero]
  · intro j
    by_cases hj : j ∈ active
    · exact coord_subgrad pen hl h1 X y b coef j (den_pos pen hl h1' X w hwpos j (hX j hj))
        (fold_fixed pen X w z b active hnd coef hf j hj) (coef' j)
    · rw [hc j hj]; simp

theorem nonzeros_zero : nonzeros (fun _ : Fin p => (0 : ℝ)) = [] := by
  simp [nonzeros]

theorem nonzeros_eq_nil {coef : Fin p → ℝ} (h : nonzeros coef = []) : ∀ j, coef j = 0 := by
  intro j
  by_contra hj
  have : j ∈ nonzeros coef := by simp [nonzeros, hj]
  rw [h] at this
  cases this

theorem cdLoop_zero_stays (pen : Pen) (tol : ℝ) (X : Fin n → Fin p → ℝ) (y : Fin n → ℝ) (j : Fin p)
    (fuel : Nat) (active : Active p) (coef : Fin p → ℝ) (b : ℝ)
    (ha : match active with | .flat l => j ∉ l | .column l => j ∉ l) (hj : coef j = 0)
    {c : Fin p → ℝ} {b' : ℝ} {v : Bool} (h : cdLoop pen tol X y fuel active coef b = .ok (c, b', v)) :
    c j = 0 := by
  induction fuel generalizing active coef b with
  | zero =>
    simp only [cdLoop, Except.ok.injEq, Prod.mk.injEq] at h
    rw [← h.1]; exact hj
  | succ fuel ih =>
    simp only [cdLoop] at h
    have key : ∀ c1 b1, sweepActive pen X (adjustedResponse X y coef b).1
        (adjustedResponse X y coef b).2 active coef = .ok (c1, b1) → c1 j = 0 := by
      intro c1 b1 hs
      have : ∀ l : List (Fin p), j ∉ l → cdSweep pen X (adjustedResponse X y coef b).1
          (adjustedResponse X y coef b).2 l coef = (c1, b1) → c1 j = 0 := by
        intro l hl he
        have h3 : c1 = (cdSweep pen X (adjustedResponse X y coef b).1
          (adjustedResponse X y coef b).2 l coef).1 := by rw [he]
        rw [h3, cdSweep]
        exact (fold_inactive pen X _ _ _ l coef j hl).trans hj
      cases active with
      | flat l =>
        simp only [sweepActive, Except.ok.injEq] at hs
        exact this l ha hs
      | column l =>
        simp only [sweepActive] at hs
        split at hs
        · exact this l ha (by simpa using hs)
        · cases hs
    split at h
    · cases h
    · rename_i c1 b1 hs
      have hc1 := key c1 b1 hs
      split at h
      · cases h
      · split at h
        · simp only [Except.ok.injEq, Prod.mk.injEq] at h
          rw [← h.1]; exact hc1
        · exact ih _ _ _ (by simp [nonzeros, hc1]) hc1 h

/-- The cold fit of the same data does make the coefficient nonzero. -/
theorem cold_nonzero : ∃ c b v,
    cd ⟨1, 1, true⟩ (1 / 100) 1 false (fun _ => 0) 0 (![![1], ![-1]] : Fin 2 → Fin 1 → ℝ) ![4, 0] =
      .ok (c, b, v) ∧ c 0 = 1 := by
  have hc : (cdSweep ⟨1, 1, true⟩ (![![1], ![-1]] : Fin 2 → Fin 1 → ℝ)
      (adjustedResponse ![![1], ![-1]] ![4, 0] (fun _ => 0) 0).1
      (adjustedResponse ![![1], ![-1]] ![4, 0] (fun _ => 0) 0).2 (List.finRange 1)
      (fun _ => 0)).1 0 = 1 := by
    have hI : cdIntercept ⟨1, 1, true⟩ (![![1], ![-1]] : Fin 2 → Fin 1 → ℝ)
        (adjustedResponse ![![1], ![-1]] ![4, 0] (fun _ => 0) 0).1
        (adjustedResponse ![![1], ![-1]] ![4, 0] (fun _ => 0) 0).2 (fun _ => 0) = 1 := by
      simp [cdIntercept, adjustedResponse, dot, Fin.sum_univ_two]
      norm_num
    have hnum : numUpdate (![![1], ![-1]] : Fin 2 → Fin 1 → ℝ)
        (adjustedResponse ![![1], ![-1]] ![4, 0] (fun _ => 0) 0).1
        (adjustedResponse ![![1], ![-1]] ![4, 0] (fun _ => 0) 0).2 1 (fun _ => 0) 0 = 2 := by
      simp [numUpdate, adjustedResponse, dot, Fin.sum_univ_two]
      norm_num
    have hden : denUpdate (![![1], ![-1]] : Fin 2 → Fin 1 → ℝ)
        (adjustedResponse ![![1], ![-1]] ![4, 0] (fun _ => 0) 0).1 0 = 1 := by
      simp [denUpdate, adjustedResponse, dot, Fin.sum_univ_two]
    simp only [cdSweep, hI, List.finRange_succ, List.finRange_zero, List.map_nil, List.foldl_cons,
      List.foldl_nil, cdCoord, hnum, hden, Function.update_self]
    rw [soft_of_gt] <;> norm_num
  simp only [cd, cdLoop, sweepActive]
  simp only [Bool.false_eq_true, if_false, one_ne_zero]
  split_ifs
  · exact ⟨_, _, _, rfl, hc⟩
  · exact ⟨_, _, _, rfl, hc⟩

theorem loss_line (X : Fin n → Fin p → ℝ) (y sw : Fin n → ℝ) (l2 : ℝ) (coef d : Fin p → ℝ)
    (b e : ℝ) :
    HasDerivAt (fun t : ℝ => smoothLoss X y sw l2 (b + t * e) (fun j => coef j + t * d j))
      (1 / n * ∑ i, sw i * (Real.exp (b + ∑ j, X i j * coef j) - y i) * (e + ∑ j, X i j * d j) +
        l2 * ∑ j, coef j * d j) 0 := by
  unfold smoothLoss
  have hη : ∀ i, HasDerivAt (fun t : ℝ => b + t * e + ∑ j, X i j * (coef j + t * d j))
      (e + ∑ j, X i j * d j) 0 := by
    intro i
    refine HasDerivAt.add ?_ (HasDerivAt.fun_sum fun j _ => ?_)
    · simpa using ((hasDerivAt_id (0 : ℝ)).mul_const e).const_add b
    · simpa using (((hasDerivAt_id (0 : ℝ)).mul_const (d j)).const_add (coef j)).const_mul (X i j)
  have h1 : HasDerivAt (fun t : ℝ => ∑ i, sw i * (Real.exp (b + t * e +
      ∑ j, X i j * (coef j + t * d j)) - y i * (b + t * e + ∑ j, X i j * (coef j + t * d j))))
      (∑ i, sw i * (Real.exp (b + ∑ j, X i j * coef j) - y i) * (e + ∑ j, X i j * d j)) 0 := by
    refine HasDerivAt.fun_sum fun i _ => ?_
    have h2 := (((hη i).exp.sub ((hη i).const_mul (y i))).const_mul (sw i))
    refine h2.congr_deriv ?_
    simp only [zero_mul, add_zero]
    ring
  have h2 : HasDerivAt (fun t : ℝ => ∑ j, (coef j + t * d j) ^ 2) (∑ j, 2 * (coef j * d j)) 0 := by
    refine HasDerivAt.fun_sum fun j _ => ?_
    have h0 : HasDerivAt (fun t : ℝ => coef j + t * d j) (d j) 0 := by
      simpa using ((hasDerivAt_id (0 : ℝ)).mul_const (d j)).const_add (coef j)
    have h3 := h0.fun_pow 2
    refine h3.congr_deriv ?_
    simp
    ring
  have h3 := (h1.const_mul (1 / (n : ℝ))).fun_add (h2.const_mul (l2 / 2))
  refine h3.congr_deriv ?_
  rw [← Finset.mul_sum]
  ring

theorem grad_dir [NeZero n] (X : Fin n → Fin p → ℝ) (y sw : Fin n → ℝ) (l2 : ℝ)
    (coef d : Fin p → ℝ) (b e : ℝ) :
    1 / n * ∑ i, sw i * (Real.exp (b + ∑ j, X i j * coef j) - y i) * (e + ∑ j, X i j * d j) +
        l2 * ∑ j, coef j * d j =
      ∑ j, (-(∑ i, X i j * (sw i * (y i - Real.exp (b + ∑ j, X i j * coef j)))) / n +
        l2 * coef j) * d j +
      -((∑ i, sw i * (y i - Real.exp (b + ∑ j, X i j * coef j))) / n) * e := by
  set r : Fin n → ℝ := fun i => sw i * (y i - Real.exp (b + ∑ j, X i j * coef j)) with hr
  have h1 : ∀ i, sw i * (Real.exp (b + ∑ j, X i j * coef j) - y i) * (e + ∑ j, X i j * d j) =
      -(r i * e) - r i * ∑ j, X i j * d j := fun i => by simp only [hr]; ring
  rw [Finset.sum_congr rfl fun i _ => h1 i, Finset.sum_sub_distrib, Verif.Grid.sum_cross,
    Finset.sum_neg_distrib, ← Finset.sum_mul]
  simp only [add_mul, Finset.sum_add_distrib, mul_assoc, ← Finset.mul_sum]
  have h2 : ∑ j, -(∑ i, X i j * r i) / (n : ℝ) * d j =
      -(1 / n * ∑ j, (∑ i, X i j * r i) * d j) := by
    rw [Finset.mul_sum, ← Finset.sum_neg_distrib]
    exact Finset.sum_congr rfl fun j _ => by ring
  rw [h2]
  ring

/-- At a penalty that keeps every coefficient at zero in the first sweep, the solver stops there, and
    returns the intercept `ȳ - 1`. -/
theorem cd_first_sweep [NeZero n] (pen : Pen) (hfi : pen.fi = true) (tol : ℝ) (ht : 0 < tol)
    (maxIter : Nat) (coef0 : Fin (p + 1) → ℝ) (b0 : ℝ) (X : Fin n → Fin (p + 1) → ℝ)
    (y : Fin n → ℝ)
    (hcrit : ∀ j, |(∑ i, X i j * (y i - (∑ i, y i) / n)) / n| ≤ pen.l1 * pen.alpha) :
    cd pen tol (maxIter + 1) false coef0 b0 X y =
      .ok (fun _ => 0, (∑ i, y i) / n - 1, true) := by
  have hn : (n : ℝ) ≠ 0 := by exact_mod_cast NeZero.ne n
  have hw : (adjustedResponse X y (fun _ => 0) 0).1 = fun _ => (1 : ℝ) := by
    funext i; simp [adjustedResponse, dot]
  have hz : (adjustedResponse X y (fun _ => 0) 0).2 = fun i => y i - 1 := by
    funext i; simp [adjustedResponse, dot]
  have hI : cdIntercept pen X (fun _ => (1 : ℝ)) (fun i => y i - 1) (fun _ => 0) =
      (∑ i, y i) / n - 1 := by
    simp [cdIntercept, hfi, dot]
    field_simp
  have hc : ∀ j, cdCoord pen X (fun _ => (1 : ℝ)) (fun i => y i - 1) ((∑ i, y i) / n - 1)
      (fun _ => 0) j = fun _ => 0 := by
    intro j
    have hnum : numUpdate X (fun _ => (1 : ℝ)) (fun i => y i - 1) ((∑ i, y i) / n - 1)
        (fun _ => 0) j = (∑ i, X i j * (y i - (∑ i, y i) / n)) / n := by
      simp only [numUpdate, dot]
      congr 1
      exact Finset.sum_congr rfl fun i _ => by simp
    rw [cdCoord, hnum, soft_of_le (hcrit j), zero_div]
    exact Function.update_eq_self j (fun _ => (0 : ℝ))
  have hfold : ∀ l : List (Fin (p + 1)), l.foldl (cdCoord pen X (fun _ => (1 : ℝ))
      (fun i => y i - 1) ((∑ i, y i) / n - 1)) (fun _ => 0) = fun _ => 0 := by
    intro l
    induction l with
    | nil => rfl
    | cons j js ih => rw [List.foldl_cons, hc j, ih]
  simp only [cd, Bool.false_eq_true, if_false, cdLoop, sweepActive, hw, hz, cdSweep, hI, hfold]
  simp [ht]

/-- The indices of an active set. -/
def Active.idx : Active p → List (Fin p)
  | .flat l => l
  | .column l => l

/-- The iterates of the loop. -/
theorem cdLoop_iterates (pen : Pen) (tol : ℝ) (X : Fin n → Fin p → ℝ) (y : Fin n → ℝ) (fuel : Nat) :
    ∀ (active : Active p) (coef : Fin p → ℝ) (b0 : ℝ) {c : Fin p → ℝ} {b : ℝ} {v : Bool},
    cdLoop pen tol X y fuel active coef b0 = .ok (c, b, v) →
    ∃ (k : Nat) (it : Nat → (Fin p → ℝ) × ℝ), k ≤ fuel ∧ it 0 = (coef, b0) ∧ it k = (c, b) ∧
      (∀ m < k, it (m + 1) = cdSweep pen X (adjustedResponse X y (it m).1 (it m).2).1
        (adjustedResponse X y (it m).1 (it m).2).2 (if m = 0 then active.idx else nonzeros (it m).1) (it m).1) ∧
      (∀ m, m + 1 < k → ∃ j, tol ≤ |(it m).1 j - (it (m + 1)).1 j|) ∧
      (v = true → 0 < k ∧ ∀ j, |(it (k - 1)).1 j - c j| < tol) ∧
      (v = false → k = fuel ∧ (0 < k → ∃ j, tol ≤ |(it (k - 1)).1 j - c j|)) := by
  induction fuel with
  | zero =>
    intro active coef b0 c b v h
    simp only [cdLoop, Except.ok.injEq, Prod.mk.injEq] at h
    obtain ⟨rfl, rfl, rfl⟩ := h
    exact ⟨0, fun _ => (coef, b0), le_rfl, rfl, rfl, fun m hm => absurd hm (Nat.not_lt_zero _),
      fun m hm => absurd hm (Nat.not_lt_zero _), (fun h => by cases h), fun _ => ⟨rfl, fun h => absurd h (lt_irrefl 0)⟩⟩
  | succ fuel ih =>
    intro active coef b0 c b v h
    simp only [cdLoop] at h
    have hsw : ∀ r, sweepActive pen X (adjustedResponse X y coef b0).1 (adjustedResponse X y coef b0).2 active coef = .ok r →
        r = cdSweep pen X (adjustedResponse X y coef b0).1 (adjustedResponse X y coef b0).2 active.idx coef := by
      intro r hr
      unfold sweepActive at hr
      cases active with
      | flat l => exact (Except.ok.inj hr).symm
      | column l =>
        simp only at hr
        split_ifs at hr
        exact (Except.ok.inj hr).symm
    cases hs : sweepActive pen X (adjustedResponse X y coef b0).1 (adjustedResponse X y coef b0).2 active coef with
    | error e => rw [hs] at h; cases h
    | ok r =>
      obtain ⟨c', b'⟩ := r
      have hr := hsw _ hs
      rw [hs] at h
      simp only at h
      split_ifs at h with hp hcv
      · simp only [Except.ok.injEq, Prod.mk.injEq] at h
        obtain ⟨rfl, rfl, rfl⟩ := h
        refine ⟨1, fun m => if m = 0 then (coef, b0) else (c', b'), by omega, rfl, rfl, fun m hm => ?_, fun m hm => by omega,
          fun _ => ⟨one_pos, hcv⟩, fun h => by cases h⟩
        have : m = 0 := by omega
        subst this
        simpa using hr
      · obtain ⟨k, it, hk, h0, hk', hst, hch, hv, hv'⟩ := ih _ _ _ h
        have hbig : ∃ j, tol ≤ |coef j - c' j| := by
          push Not at hcv
          exact hcv
        refine ⟨k + 1, fun m => if m = 0 then (coef, b0) else it (m - 1), by omega, rfl, by simpa using hk', ?_, ?_, ?_, ?_⟩
        · intro m hm
          rcases Nat.eq_zero_or_pos m with rfl | hm0
          · simp only [Nat.zero_add, if_true, Nat.sub_self, h0, one_ne_zero, if_false]
            exact hr
          · have h1 := hst (m - 1) (by omega)
            have e1 : m - 1 + 1 = m := by omega
            have e2 : m + 1 - 1 = m := by omega
            have e3 : m ≠ 0 := by omega
            rw [e1] at h1
            simp only [Nat.add_eq_zero_iff, one_ne_zero, and_false, if_false, e2, e3]
            rw [h1]
            congr 1
            split_ifs with hz
            · have : m = 1 := by omega
              subst this
              simp [Active.idx, h0]
            · rfl
        · intro m hm
          rcases Nat.eq_zero_or_pos m with rfl | hm0
          · simpa [h0] using hbig
          · have h1 := hch (m - 1) (by omega)
            have e1 : m - 1 + 1 = m := by omega
            have e3 : m ≠ 0 := by omega
            rw [e1] at h1
            simpa [e3] using h1
        · intro hvt
          obtain ⟨hk0, hj⟩ := hv hvt
          have e3 : k ≠ 0 := by omega
          exact ⟨by omega, by simpa [e3] using hj⟩
        · intro hvf
          obtain ⟨hkf, hj⟩ := hv' hvf
          refine ⟨by omega, fun _ => ?_⟩
          rcases Nat.eq_zero_or_pos k with rfl | hk0
          · rw [h0] at hk'
            cases hk'
            simpa using hbig
          · have e3 : k ≠ 0 := by omega
            simpa [e3] using hj hk0

end Verif.Poisson
