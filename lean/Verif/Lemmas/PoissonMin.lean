import Mathlib.Analysis.Convex.SpecificFunctions.Basic
import Verif.Lemmas.LogisticMin
import Verif.Model.PoissonMin
import Verif.Spec.PoissonMin
/-!
Lemmas about the minimisers of the Poisson objective.
-/
namespace Verif.Poisson
open Verif.Spec.LogisticMin Verif.Spec.PoissonMin Verif.Logistic

variable {n p : Nat}

/-- The linear predictors. -/
def etaL (fi : Bool) (X : Fin n → Fin p → ℝ) : (Fin p → ℝ) × ℝ →ₗ[ℝ] (Fin n → ℝ) where
  toFun v i := (if fi then v.2 else 0) + dot (X i) v.1
  map_add' u v := by
    funext i
    simp only [Prod.fst_add, Prod.snd_add, dot, Pi.add_apply, mul_add, Finset.sum_add_distrib]
    split_ifs <;> ring
  map_smul' a v := by
    funext i
    simp only [Prod.smul_fst, Prod.smul_snd, dot, Pi.smul_apply, smul_eq_mul, RingHom.id_apply]
    have : ∀ j, X i j * (a * v.1 j) = a * (X i j * v.1 j) := fun j => by ring
    simp only [this, ← Finset.mul_sum]
    split_ifs <;> ring

/-- The penalty on the coefficients. -/
noncomputable def penP (alpha l1 : ℝ) (w : Fin p → ℝ) : ℝ :=
  1 / 2 * (alpha * (1 - l1)) * (∑ j, w j * w j) + alpha * l1 * ∑ j, |w j|

/-- The mean loss of linear predictors. -/
noncomputable def lossP (y eta : Fin n → ℝ) : ℝ := (∑ i, (Real.exp (eta i) - y i * eta i)) / n

theorem poisTarget_eq (alpha l1 : ℝ) (fi : Bool) (X : Fin n → Fin p → ℝ) (y : Fin n → ℝ)
    (v : (Fin p → ℝ) × ℝ) :
    poisTarget alpha l1 fi X y v = lossP y (etaL fi X v) + penP alpha l1 v.1 := by
  have hb : (interceptEntry fi v.2).getD 0 = if fi then v.2 else 0 := by
    unfold interceptEntry
    split_ifs <;> rfl
  simp only [poisTarget, lossGrad, lossP, penP, hb, etaL, LinearMap.coe_mk, AddHom.coe_mk]
  rw [← Finset.sum_neg_distrib]
  simp only [one_mul, neg_sub]
  ring

/-- Constants that make the loss of each sample nonnegative. -/
noncomputable def offset (y : ℝ) : ℝ := (y + 1) * Real.log (y + 1)

theorem offset_nonneg {y : ℝ} (hy : 0 ≤ y) : 0 ≤ offset y :=
  mul_nonneg (by linarith) (Real.log_nonneg (by linarith))

/-- The loss of a sample grows with the predictor. -/
theorem term_low {y : ℝ} (hy : 0 ≤ y) (x : ℝ) : x ≤ Real.exp x - y * x + offset y := by
  have hp : 0 < y + 1 := by linarith
  have h1 := Real.add_one_le_exp (x - Real.log (y + 1))
  rw [Real.exp_sub, Real.exp_log hp, le_div_iff₀ hp] at h1
  unfold offset
  nlinarith

theorem term_low' {y : ℝ} (hy : 0 ≤ y) (x : ℝ) : -(y * x) ≤ Real.exp x - y * x + offset y := by
  have := offset_nonneg hy
  have := Real.exp_pos x
  linarith

theorem term_nonneg {y : ℝ} (hy : 0 ≤ y) (x : ℝ) : 0 ≤ Real.exp x - y * x + offset y := by
  rcases le_or_gt 0 x with h | h
  · exact h.trans (term_low hy x)
  · have := term_low' hy x
    nlinarith

/-- Both growth conditions as coordinates. -/
def coordL (fi : Bool) (X : Fin n → Fin p → ℝ) (y : Fin n → ℝ) :
    (Fin p → ℝ) × ℝ →ₗ[ℝ] (Fin n ⊕ Fin n → ℝ) where
  toFun v := Sum.elim (fun i => -etaL fi X v i) (fun i => y i * etaL fi X v i)
  map_add' u v := by
    funext i
    rcases i with i | i <;> simp only [map_add, Sum.elim_inl, Sum.elim_inr, Pi.add_apply] <;> ring
  map_smul' a v := by
    funext i
    rcases i with i | i <;>
      simp only [map_smul, Sum.elim_inl, Sum.elim_inr, Pi.smul_apply, smul_eq_mul, RingHom.id_apply] <;> ring

/-- The loss in these coordinates, made nonnegative. -/
noncomputable def lossC (y : Fin n → ℝ) (m : Fin n ⊕ Fin n → ℝ) : ℝ :=
  (∑ i, (Real.exp (-m (.inl i)) - m (.inr i) + offset (y i))) / n

theorem lossC_eq (fi : Bool) (X : Fin n → Fin p → ℝ) (y : Fin n → ℝ) (v : (Fin p → ℝ) × ℝ) :
    lossC y (coordL fi X y v) = lossP y (etaL fi X v) + (∑ i, offset (y i)) / n := by
  simp only [lossC, lossP, coordL, LinearMap.coe_mk, AddHom.coe_mk, Sum.elim_inl, Sum.elim_inr, neg_neg]
  rw [Finset.sum_add_distrib, add_div]

theorem lossC_nonneg (fi : Bool) (X : Fin n → Fin p → ℝ) {y : Fin n → ℝ} (hy : ∀ i, 0 ≤ y i)
    (v : (Fin p → ℝ) × ℝ) : 0 ≤ lossC y (coordL fi X y v) := by
  refine div_nonneg (Finset.sum_nonneg fun i _ => ?_) (Nat.cast_nonneg n)
  simpa [coordL] using term_nonneg (hy i) (etaL fi X v i)

theorem lossC_low (fi : Bool) (X : Fin n → Fin p → ℝ) {y : Fin n → ℝ} (hy : ∀ i, 0 ≤ y i)
    (v : (Fin p → ℝ) × ℝ) (q : Fin n ⊕ Fin n) :
    (if n = 0 then (1 : ℝ) else 1 / n) * -coordL fi X y v q ≤ lossC y (coordL fi X y v) := by
  have key : ∀ i : Fin n, ∀ t, t ≤ Real.exp (etaL fi X v i) - y i * etaL fi X v i + offset (y i) →
      (if n = 0 then (1 : ℝ) else 1 / n) * t ≤ lossC y (coordL fi X y v) := by
    intro i t ht
    have hn : (0 : ℝ) < n := by exact_mod_cast i.pos
    rw [if_neg (Nat.pos_iff_ne_zero.mp i.pos), one_div, ← div_eq_inv_mul]
    refine div_le_div_of_nonneg_right (ht.trans ?_) hn.le
    have := Finset.single_le_sum
      (f := fun i => Real.exp (etaL fi X v i) - y i * etaL fi X v i + offset (y i))
      (fun i _ => term_nonneg (hy i) _) (Finset.mem_univ i)
    simpa [coordL] using this
  rcases q with i | i
  · refine key i _ ?_
    simpa [coordL] using term_low (hy i) (etaL fi X v i)
  · refine key i _ ?_
    simpa [coordL] using term_low' (hy i) (etaL fi X v i)

theorem lossC_continuous (y : Fin n → ℝ) : Continuous (lossC y) := by
  unfold lossC
  fun_prop

/-- The predictors in terms of the specification. -/
theorem etaL_score {fi : Bool} (X : Fin n → Fin p → ℝ) {d : Fin p → ℝ} {e : ℝ}
    (h : fi = false → e = 0) (i : Fin n) : etaL fi X (d, e) i = score d e (X i) := by
  have he : (if fi = true then e else 0) = e := by
    split_ifs with hf
    · rfl
    · exact (h (by simpa using hf)).symm
  simp only [etaL, LinearMap.coe_mk, AddHom.coe_mk, he, score, dot]
  simp only [mul_comm (d _), add_comm]

theorem etaL_cut (fi : Bool) (X : Fin n → Fin p → ℝ) (v : (Fin p → ℝ) × ℝ) :
    etaL fi X v = etaL fi X (v.1, if fi then v.2 else 0) := by
  cases fi <;> rfl

/-- The loss and a penalty: existence of a minimiser. -/
theorem attained_poisson (alpha l1 : ℝ) (fi : Bool) (X : Fin n → Fin p → ℝ) {y : Fin n → ℝ}
    (hy : ∀ i, 0 ≤ y i) {κ : Type} [Fintype κ] (W : (Fin p → ℝ) × ℝ →ₗ[ℝ] (κ → ℝ)) (pen : (κ → ℝ) → ℝ)
    (hpen : ∀ v, pen (W v) = penP alpha l1 v.1) (hp : Continuous pen) {c' K : ℝ} (hc' : 0 < c')
    (hplow : ∀ w j, c' * |w j| ≤ pen w + K) (hp0 : ∀ w, 0 ≤ pen w) (hK : 0 ≤ K)
    (h : ∀ v, (∀ j, W v j = 0) → (∀ i, etaL fi X v i ≤ 0) → (∀ i, 0 < y i → etaL fi X v i = 0) →
      ∀ i, etaL fi X v i = 0) : Attained (poisTarget alpha l1 fi X y) := by
  obtain ⟨v, hv⟩ := attained_add (coordL fi X y) W (lossC y) pen (lossC_continuous y) hp (pos_inv n) hc'
    (lossC_low fi X hy) (lossC_nonneg fi X hy) hplow hp0 hK (by
      intro v hw hall
      have h0 : ∀ i, etaL fi X v i ≤ 0 := fun i => by
        have : 0 ≤ -etaL fi X v i := hall (.inl i)
        linarith
      have := h v hw h0 fun i hi => by
        have h1 : 0 ≤ y i * etaL fi X v i := hall (.inr i)
        exact le_antisymm (h0 i) (by
          by_contra hc
          push Not at hc
          nlinarith)
      intro q
      rcases q with i | i <;> simp [coordL, this])
  refine ⟨v, fun v' => ?_⟩
  have := hv v'
  simp only [lossC_eq, hpen] at this
  rw [poisTarget_eq, poisTarget_eq]
  linarith

theorem penP_low {alpha l1 : ℝ} (ha : 0 ≤ alpha) (h0 : 0 ≤ l1) (h1 : l1 ≤ 1) (w : Fin p → ℝ)
    (j : Fin p) : alpha * |w j| ≤ penP alpha l1 w + alpha * (1 - l1) / 2 := by
  have s1 : w j * w j ≤ ∑ j, w j * w j :=
    Finset.single_le_sum (f := fun j => w j * w j) (fun j _ => mul_self_nonneg _) (Finset.mem_univ j)
  have s2 : |w j| ≤ ∑ j, |w j| :=
    Finset.single_le_sum (f := fun j => |w j|) (fun j _ => abs_nonneg _) (Finset.mem_univ j)
  have s3 : 2 * |w j| ≤ w j * w j + 1 := by
    rw [← abs_mul_abs_self (w j)]
    nlinarith [mul_self_nonneg (|w j| - 1)]
  have hb : 0 ≤ alpha * (1 - l1) := mul_nonneg ha (by linarith)
  have := mul_le_mul_of_nonneg_left s2 (mul_nonneg ha h0)
  have := mul_le_mul_of_nonneg_left (s3.trans (add_le_add_left s1 1)) hb
  unfold penP
  nlinarith

theorem penP_nonneg {alpha l1 : ℝ} (ha : 0 ≤ alpha) (h0 : 0 ≤ l1) (h1 : l1 ≤ 1) (w : Fin p → ℝ) :
    0 ≤ penP alpha l1 w := by
  have hb : 0 ≤ alpha * (1 - l1) := mul_nonneg ha (by linarith)
  unfold penP
  exact add_nonneg (mul_nonneg (by linarith) (Finset.sum_nonneg fun j _ => mul_self_nonneg _))
    (mul_nonneg (mul_nonneg ha h0) (Finset.sum_nonneg fun j _ => abs_nonneg _))

/-- Midpoints. -/
theorem exp_mid {a b : ℝ} (h : a ≠ b) :
    Real.exp ((1 / 2 : ℝ) * a + 1 / 2 * b) < 1 / 2 * Real.exp a + 1 / 2 * Real.exp b :=
  strictConvexOn_exp.2 (Set.mem_univ a) (Set.mem_univ b) h (by norm_num) (by norm_num) (by norm_num)

theorem exp_mid_le (a b : ℝ) :
    Real.exp ((1 / 2 : ℝ) * a + 1 / 2 * b) ≤ 1 / 2 * Real.exp a + 1 / 2 * Real.exp b := by
  by_cases h : a = b
  · rw [h, ← add_mul, ← add_mul]
    norm_num
  · exact (exp_mid h).le

theorem penP_mid {alpha l1 : ℝ} (ha : 0 ≤ alpha) (h0 : 0 ≤ l1) (u v : Fin p → ℝ) :
    penP alpha l1 ((1 / 2 : ℝ) • u + (1 / 2 : ℝ) • v) ≤
      1 / 2 * penP alpha l1 u + 1 / 2 * penP alpha l1 v -
        1 / 8 * (alpha * (1 - l1)) * ∑ j, (u j - v j) * (u j - v j) := by
  have hq : ∑ j, ((1 / 2 : ℝ) • u + (1 / 2 : ℝ) • v) j * ((1 / 2 : ℝ) • u + (1 / 2 : ℝ) • v) j =
      1 / 2 * ∑ j, u j * u j + 1 / 2 * ∑ j, v j * v j - 1 / 4 * ∑ j, (u j - v j) * (u j - v j) := by
    rw [Finset.mul_sum, Finset.mul_sum, Finset.mul_sum, ← Finset.sum_add_distrib,
      ← Finset.sum_sub_distrib]
    refine Finset.sum_congr rfl fun j _ => ?_
    simp only [Pi.add_apply, Pi.smul_apply, smul_eq_mul]
    ring
  have hl : ∑ j, |((1 / 2 : ℝ) • u + (1 / 2 : ℝ) • v) j| ≤ 1 / 2 * ∑ j, |u j| + 1 / 2 * ∑ j, |v j| := by
    rw [Finset.mul_sum, Finset.mul_sum, ← Finset.sum_add_distrib]
    refine Finset.sum_le_sum fun j _ => ?_
    simp only [Pi.add_apply, Pi.smul_apply, smul_eq_mul]
    refine (abs_add_le _ _).trans ?_
    rw [abs_mul, abs_mul, abs_of_pos (show (0 : ℝ) < 1 / 2 by norm_num)]
  unfold penP
  rw [hq]
  have := mul_le_mul_of_nonneg_left hl (mul_nonneg ha h0)
  linarith

theorem lossP_mid (y a b : Fin n → ℝ) :
    lossP y ((1 / 2 : ℝ) • a + (1 / 2 : ℝ) • b) ≤ 1 / 2 * lossP y a + 1 / 2 * lossP y b := by
  unfold lossP
  rw [← mul_div_assoc, ← mul_div_assoc, ← add_div]
  refine div_le_div_of_nonneg_right ?_ (Nat.cast_nonneg n)
  rw [Finset.mul_sum, Finset.mul_sum, ← Finset.sum_add_distrib]
  refine Finset.sum_le_sum fun i _ => ?_
  have := exp_mid_le (a i) (b i)
  simp only [Pi.add_apply, Pi.smul_apply, smul_eq_mul]
  linarith

theorem lossP_mid_lt (y : Fin n → ℝ) {a b : Fin n → ℝ} (h : a ≠ b) :
    lossP y ((1 / 2 : ℝ) • a + (1 / 2 : ℝ) • b) < 1 / 2 * lossP y a + 1 / 2 * lossP y b := by
  obtain ⟨i, hi⟩ := Function.ne_iff.mp h
  have hn : (0 : ℝ) < n := by exact_mod_cast i.pos
  unfold lossP
  rw [← mul_div_assoc, ← mul_div_assoc, ← add_div]
  refine div_lt_div_of_pos_right ?_ hn
  rw [Finset.mul_sum, Finset.mul_sum, ← Finset.sum_add_distrib]
  refine Finset.sum_lt_sum (fun i _ => ?_) ⟨i, Finset.mem_univ i, ?_⟩
  · have := exp_mid_le (a i) (b i)
    simp only [Pi.add_apply, Pi.smul_apply, smul_eq_mul]
    linarith
  · have := exp_mid hi
    simp only [Pi.add_apply, Pi.smul_apply, smul_eq_mul]
    linarith

end Verif.Poisson
