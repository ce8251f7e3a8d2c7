import Mathlib.Topology.Algebra.Module.FiniteDimension
import Mathlib.Analysis.Normed.Module.FiniteDimension
import Mathlib.Topology.Order.Compact
import Mathlib.Analysis.SpecialFunctions.Log.Basic
import Mathlib.Tactic.Linarith
import Verif.Model.LogisticMin
import Verif.Spec.LogisticMin
/-!
Lemmas about the existence of minimisers.
-/
namespace Verif.Logistic
open Verif.Spec.LogisticMin Filter Topology

/-- A continuous function that grows with every negative coordinate has a minimum on a subspace in which
    only zero has no negative coordinate. -/
theorem exists_min_subspace {ι : Type} [Fintype ι] (R : Submodule ℝ (ι → ℝ)) (G : (ι → ℝ) → ℝ)
    (hG : Continuous G) {c K : ℝ} (hc : 0 < c) (hlow : ∀ m ∈ R, ∀ i, c * -m i ≤ G m + K)
    (hpos : ∀ m ∈ R, (∀ i, 0 ≤ m i) → m = 0) : ∃ m ∈ R, ∀ m' ∈ R, G m ≤ G m' := by
  classical
  have hRc : IsClosed (R : Set (ι → ℝ)) := R.closed_of_finiteDimensional
  -- every unit vector of the subspace has a coordinate below `-δ`
  obtain ⟨δ, hδ, hδm⟩ : ∃ δ > 0, ∀ m ∈ R, ‖m‖ = 1 → ∃ i, m i ≤ -δ := by
    let Sph : Set (ι → ℝ) := {m | m ∈ R ∧ ‖m‖ = 1}
    have hcomp : IsCompact Sph := by
      have : Sph = (R : Set (ι → ℝ)) ∩ Metric.sphere 0 1 := by
        ext m
        simp [Sph]
      rw [this]
      exact (isCompact_sphere 0 1).inter_left hRc
    by_contra hcon
    push Not at hcon
    have hseq : ∀ N : ℕ, ∃ m ∈ Sph, ∀ i, -(1 / ((N : ℝ) + 1)) < m i := by
      intro N
      obtain ⟨m, hm, h1, h2⟩ := hcon (1 / ((N : ℝ) + 1)) (by positivity)
      exact ⟨m, ⟨hm, h1⟩, h2⟩
    choose u hu hui using hseq
    obtain ⟨a, ha, φ, hφ, hlim⟩ := hcomp.tendsto_subseq hu
    have hnn : ∀ i, 0 ≤ a i := by
      intro i
      have h1 : Tendsto (fun N => (u ∘ φ) N i) atTop (𝓝 (a i)) := (tendsto_pi_nhds.mp hlim) i
      have h2 : Tendsto (fun N : ℕ => -(1 / (((φ N : ℕ) : ℝ) + 1))) atTop (𝓝 (-0)) :=
        (tendsto_one_div_add_atTop_nhds_zero_nat.comp hφ.tendsto_atTop).neg
      rw [neg_zero] at h2
      exact le_of_tendsto_of_tendsto' h2 h1 fun N => (hui (φ N) i).le
    have h0 := hpos a ha.1 hnn
    have := ha.2
    rw [h0, norm_zero] at this
    exact one_ne_zero this.symm
  have hgrow : ∀ m ∈ R, c * δ * ‖m‖ ≤ G m + K ∨ m = 0 := by
    intro m hm
    by_cases h0 : m = 0
    · exact .inr h0
    have hn : 0 < ‖m‖ := norm_pos_iff.mpr h0
    obtain ⟨i, hi⟩ := hδm (‖m‖⁻¹ • m) (R.smul_mem _ hm) (by
      rw [norm_smul, norm_inv, norm_norm, inv_mul_cancel₀ hn.ne'])
    left
    have : m i ≤ -δ * ‖m‖ := by
      have := mul_le_mul_of_nonneg_left hi hn.le
      simp only [Pi.smul_apply, smul_eq_mul] at this
      rw [← mul_assoc, mul_inv_cancel₀ hn.ne', one_mul] at this
      linarith
    have h1 := hlow m hm i
    have h2 := mul_le_mul_of_nonneg_left this hc.le
    nlinarith
  -- so the minimum is taken in a ball
  obtain ⟨r, hr0, hr⟩ : ∃ r : ℝ, 0 ≤ r ∧ ∀ m ∈ R, r < ‖m‖ → G 0 ≤ G m := by
    refine ⟨max 0 ((G 0 + K) / (c * δ)), le_max_left .., fun m hm hlt => ?_⟩
    rcases hgrow m hm with h | h
    · have hcd : 0 < c * δ := mul_pos hc hδ
      have h1 := lt_of_le_of_lt (le_max_right 0 ((G 0 + K) / (c * δ))) hlt
      rw [div_lt_iff₀ hcd] at h1
      nlinarith
    · rw [h]
  have hcomp : IsCompact ((R : Set (ι → ℝ)) ∩ Metric.closedBall 0 r) :=
    (isCompact_closedBall 0 r).inter_left hRc
  obtain ⟨m, ⟨hm, -⟩, hmin⟩ := hcomp.exists_isMinOn ⟨0, R.zero_mem, by simpa using hr0⟩ hG.continuousOn
  refine ⟨m, hm, fun m' hm' => ?_⟩
  by_cases hb : ‖m'‖ ≤ r
  · exact hmin ⟨hm', by simpa using hb⟩
  · exact (hmin ⟨R.zero_mem, by simpa using hr0⟩).trans (hr m' hm' (not_le.mp hb))

/-- The same for a function of a linear image. -/
theorem exists_min_comp {V ι : Type} [AddCommGroup V] [Module ℝ V] [Fintype ι] (L : V →ₗ[ℝ] (ι → ℝ))
    (G : (ι → ℝ) → ℝ) (hG : Continuous G) {c K : ℝ} (hc : 0 < c) (hlow : ∀ v i, c * -L v i ≤ G (L v) + K)
    (hpos : ∀ v, (∀ i, 0 ≤ L v i) → ∀ i, L v i = 0) : Attained fun v => G (L v) := by
  obtain ⟨m, ⟨v, rfl⟩, hmin⟩ := exists_min_subspace (LinearMap.range L) G hG hc (by
      rintro m ⟨v, rfl⟩ i
      exact hlow v i) (by
    rintro m ⟨v, rfl⟩ h
    exact funext (hpos v h))
  exact ⟨v, fun v' => hmin _ ⟨v', rfl⟩⟩

/-- A loss of margins plus a penalty: there is a minimiser when parameters without penalty that have no
    negative margin have only margins zero. -/
theorem attained_add {V ι κ : Type} [AddCommGroup V] [Module ℝ V] [Fintype ι] [Fintype κ]
    (M : V →ₗ[ℝ] (ι → ℝ)) (W : V →ₗ[ℝ] (κ → ℝ)) (loss : (ι → ℝ) → ℝ) (pen : (κ → ℝ) → ℝ)
    (hl : Continuous loss) (hp : Continuous pen) {c c' K : ℝ} (hc : 0 < c) (hc' : 0 < c')
    (hlow : ∀ v i, c * -M v i ≤ loss (M v)) (hl0 : ∀ v, 0 ≤ loss (M v))
    (hplow : ∀ w j, c' * |w j| ≤ pen w + K) (hp0 : ∀ w, 0 ≤ pen w) (hK : 0 ≤ K)
    (hpos : ∀ v, (∀ j, W v j = 0) → (∀ i, 0 ≤ M v i) → ∀ i, M v i = 0) :
    Attained fun v => loss (M v) + pen (W v) := by
  let L : V →ₗ[ℝ] (ι ⊕ (κ ⊕ κ) → ℝ) :=
    { toFun := fun v => Sum.elim (M v) (Sum.elim (W v) (-(W v)))
      map_add' := by
        intro u v
        funext i
        rcases i with i | i | i <;> simp [add_comm]
      map_smul' := by
        intro a v
        funext i
        rcases i with i | i | i <;> simp }
  have := exists_min_comp L (fun m => loss (fun i => m (.inl i)) + pen (fun j => m (.inr (.inl j))))
    (by fun_prop) (c := min c c') (K := K) (lt_min hc hc') (by
      intro v i
      have h0 := hl0 v
      have hp0' := hp0 (W v)
      have key : ∀ a x y : ℝ, min c c' ≤ a → a * x ≤ y → 0 ≤ y → min c c' * x ≤ y := by
        intro a x y ha hx hy
        rcases le_or_gt x 0 with hx0 | hx0
        · exact (mul_nonpos_of_nonneg_of_nonpos (lt_min hc hc').le hx0).trans hy
        · exact (mul_le_mul_of_nonneg_right ha hx0.le).trans hx
      rcases i with i | i | i
      · have := key c (-M v i) _ (min_le_left ..) (hlow v i) h0
        change min c c' * -M v i ≤ loss (M v) + pen (W v) + K
        linarith
      · have h1 : c' * -W v i ≤ pen (W v) + K :=
          (mul_le_mul_of_nonneg_left (neg_le_abs (W v i)) hc'.le).trans (hplow _ i)
        have := key c' (-W v i) _ (min_le_right ..) h1 (by linarith)
        change min c c' * -W v i ≤ loss (M v) + pen (W v) + K
        linarith
      · have h1 : c' * W v i ≤ pen (W v) + K :=
          (mul_le_mul_of_nonneg_left (le_abs_self (W v i)) hc'.le).trans (hplow _ i)
        have := key c' (W v i) _ (min_le_right ..) h1 (by linarith)
        change min c c' * -(-W v i) ≤ loss (M v) + pen (W v) + K
        rw [neg_neg]
        linarith) (by
      intro v h
      have hw : ∀ j, W v j = 0 := fun j =>
        le_antisymm (by have : 0 ≤ -W v j := h (.inr (.inr j)); linarith) (h (.inr (.inl j)))
      have hm := hpos v hw fun i => h (.inl i)
      intro i
      rcases i with i | i | i
      · exact hm i
      · exact hw i
      · change -W v i = 0
        rw [hw i, neg_zero])
  exact this

/-! ### Binary problems -/

variable {n p k : Nat}

theorem maskedW_add (S : Fin p → Bool) (w d : Fin p → ℝ) (j : Fin p) :
    maskedW S (w + d) j = maskedW S w j + maskedW S d j := by
  unfold maskedW
  split_ifs <;> simp

theorem maskedW_smul (S : Fin p → Bool) (a : ℝ) (w : Fin p → ℝ) (j : Fin p) :
    maskedW S (a • w) j = a * maskedW S w j := by
  unfold maskedW
  split_ifs <;> simp

/-- The coefficients within the mask. -/
def maskedL (S : Fin p → Bool) : (Fin p → ℝ) × ℝ →ₗ[ℝ] (Fin p → ℝ) where
  toFun v := maskedW S v.1
  map_add' u v := funext fun j => maskedW_add S u.1 v.1 j
  map_smul' a v := funext fun j => maskedW_smul S a v.1 j

/-- The margins `y (x·w + b)`. -/
def binMargin (fi : Bool) (S : Fin p → Bool) (X : Fin n → Fin p → ℝ) (y : Fin n → ℝ) :
    (Fin p → ℝ) × ℝ →ₗ[ℝ] (Fin n → ℝ) where
  toFun v i := y i * (∑ j, X i j * maskedW S v.1 j + if fi then v.2 else 0)
  map_add' u v := by
    funext i
    simp only [Prod.fst_add, Prod.snd_add, maskedW_add, mul_add, Finset.sum_add_distrib, Pi.add_apply]
    split_ifs <;> ring
  map_smul' a v := by
    funext i
    simp only [Prod.smul_fst, Prod.smul_snd, maskedW_smul, RingHom.id_apply, Pi.smul_apply, smul_eq_mul]
    have : ∀ j, X i j * (a * maskedW S v.1 j) = a * (X i j * maskedW S v.1 j) := fun j => by ring
    simp only [this, ← Finset.mul_sum]
    split_ifs <;> ring

/-- The mean logistic loss of margins. -/
noncomputable def lossB (m : Fin n → ℝ) : ℝ := (∑ i, Real.log (1 + Real.exp (-m i))) / n

theorem binTarget_eq (C : Option ℝ) (fi : Bool) (S : Fin p → Bool) (X : Fin n → Fin p → ℝ)
    (y : Fin n → ℝ) (v : (Fin p → ℝ) × ℝ) :
    binTarget C fi S X y v = lossB (binMargin fi S X y v) +
      1 / 2 * invC C * ∑ j, maskedL S v j * maskedL S v j := by
  have hb : (interceptArg fi v.2).getD 0 = if fi then v.2 else 0 := by
    unfold interceptArg
    split_ifs <;> rfl
  simp only [binTarget, binLossGrad, lossB, applyMask, logLogistic, hb]
  congr 2
  simp [binMargin]

theorem lossB_continuous : Continuous (lossB : (Fin n → ℝ) → ℝ) := by
  unfold lossB
  refine Continuous.div_const (continuous_finsetSum _ fun i _ => ?_) _
  exact Continuous.log (by fun_prop) fun m => by positivity

theorem log_term_nonneg (x : ℝ) : 0 ≤ Real.log (1 + Real.exp (-x)) :=
  Real.log_nonneg (by have := Real.exp_pos (-x); linarith)

theorem lossB_nonneg (m : Fin n → ℝ) : 0 ≤ lossB m :=
  div_nonneg (Finset.sum_nonneg fun i _ => log_term_nonneg _) (Nat.cast_nonneg n)

theorem lossB_low (m : Fin n → ℝ) (i : Fin n) : 1 / (n : ℝ) * -m i ≤ lossB m := by
  have hn : (0 : ℝ) < n := by exact_mod_cast i.pos
  unfold lossB
  rw [one_div, ← div_eq_inv_mul]
  refine div_le_div_of_nonneg_right ?_ hn.le
  have h1 : -m i ≤ Real.log (1 + Real.exp (-m i)) := by
    rw [Real.le_log_iff_exp_le (by positivity)]
    linarith
  exact h1.trans (Finset.single_le_sum (f := fun i => Real.log (1 + Real.exp (-m i)))
    (fun i _ => log_term_nonneg _) (Finset.mem_univ i))

theorem lossB_lt {m m' : Fin n → ℝ} (h : ∀ i, m i ≤ m' i) {i : Fin n} (hi : m i < m' i) :
    lossB m' < lossB m := by
  have hn : (0 : ℝ) < n := by exact_mod_cast i.pos
  unfold lossB
  refine div_lt_div_of_pos_right (Finset.sum_lt_sum (fun j _ => ?_) ⟨i, Finset.mem_univ i, ?_⟩) hn
  · exact Real.log_le_log (by positivity) (by have := Real.exp_le_exp.mpr (neg_le_neg (h j)); linarith)
  · exact Real.log_lt_log (by positivity) (by have := Real.exp_lt_exp.mpr (neg_lt_neg hi); linarith)

theorem pos_inv (n : Nat) : 0 < if n = 0 then (1 : ℝ) else 1 / n := by
  split_ifs with h
  · exact one_pos
  · have : (0 : ℝ) < n := by exact_mod_cast Nat.pos_of_ne_zero h
    positivity

theorem lossB_low' (m : Fin n → ℝ) (i : Fin n) : (if n = 0 then (1 : ℝ) else 1 / n) * -m i ≤ lossB m := by
  rw [if_neg (Nat.pos_iff_ne_zero.mp i.pos)]
  exact lossB_low m i

/-- The margins in terms of the specification. -/
theorem binMargin_score {fi : Bool} {S : Fin p → Bool} (X : Fin n → Fin p → ℝ) (y : Fin n → ℝ)
    {d : Fin p → ℝ} {e : ℝ} (h : Within fi S d e) (i : Fin n) :
    binMargin fi S X y (d, e) i = y i * score d e (X i) := by
  have hd : maskedW S d = d := by
    funext j
    unfold maskedW
    split_ifs with hs
    · rfl
    · exact (h.1 j (by simpa using hs)).symm
  have he : (if fi = true then e else 0) = e := by
    split_ifs with hf
    · rfl
    · exact (h.2 (by simpa using hf)).symm
  simp only [binMargin, LinearMap.coe_mk, AddHom.coe_mk, hd, he, score]
  simp only [mul_comm (d _)]

/-- Every parameter vector has the margins of one within the mask. -/
theorem within_masked (fi : Bool) (S : Fin p → Bool) (v : (Fin p → ℝ) × ℝ) :
    Within fi S (maskedW S v.1) (if fi then v.2 else 0) := by
  refine ⟨fun j hj => ?_, fun hf => ?_⟩
  · unfold maskedW
    rw [hj]
    rfl
  · rw [hf]
    rfl

theorem binMargin_masked (fi : Bool) (S : Fin p → Bool) (X : Fin n → Fin p → ℝ) (y : Fin n → ℝ)
    (v : (Fin p → ℝ) × ℝ) (i : Fin n) :
    binMargin fi S X y v i = y i * score (maskedW S v.1) (if fi then v.2 else 0) (X i) := by
  simp only [binMargin, LinearMap.coe_mk, AddHom.coe_mk, score]
  simp only [mul_comm (X i _)]

theorem quad_low {κ : Type} [Fintype κ] {a : ℝ} (ha : 0 < a) (w : κ → ℝ) (j : κ) :
    a * |w j| ≤ 1 / 2 * a * (∑ j, w j * w j) + a / 2 := by
  have h1 : w j * w j ≤ ∑ j, w j * w j :=
    Finset.single_le_sum (f := fun j => w j * w j) (fun j _ => mul_self_nonneg _) (Finset.mem_univ j)
  have h2 : 2 * |w j| ≤ w j * w j + 1 := by
    rw [← abs_mul_abs_self (w j)]
    nlinarith [mul_self_nonneg (|w j| - 1)]
  nlinarith

/-- Far along a direction that separates the samples, the logistic function is almost one. -/
theorem expit_tendsto {m : ℝ} (hm : 0 < m) : Tendsto (fun t : ℝ => expit (t * m) - 1) atTop (𝓝 0) := by
  have h1 : Tendsto (fun t : ℝ => Real.exp (-(t * m))) atTop (𝓝 0) := by
    refine Real.tendsto_exp_atBot.comp (tendsto_neg_atTop_atBot.comp ?_)
    exact tendsto_id.atTop_mul_const hm
  have h2 : Tendsto (fun t : ℝ => 1 / (1 + Real.exp (-(t * m))) - 1) atTop (𝓝 (1 / (1 + 0) - 1)) :=
    ((tendsto_const_nhds.div (tendsto_const_nhds.add h1) (by norm_num)).sub tendsto_const_nhds)
  simpa [expit] using h2

/-! ### Multinomial problems -/

/-- The scores of a sample. -/
def multiEta (fi : Bool) (S : Fin k → Fin p → Bool) (X : Fin n → Fin p → ℝ)
    (v : (Fin k → Fin p → ℝ) × (Fin k → ℝ)) (i : Fin n) (c : Fin k) : ℝ :=
  ∑ j, X i j * maskedW (S c) (v.1 c) j + if fi then v.2 c else 0

/-- How far the score of the sample's own class is above the score of another. -/
def multiMargin (fi : Bool) (S : Fin k → Fin p → Bool) (X : Fin n → Fin p → ℝ) (y : Fin n → Fin k) :
    (Fin k → Fin p → ℝ) × (Fin k → ℝ) →ₗ[ℝ] (Fin n × Fin k → ℝ) where
  toFun v q := multiEta fi S X v q.1 (y q.1) - multiEta fi S X v q.1 q.2
  map_add' u v := by
    funext q
    have : ∀ c, multiEta fi S X (u + v) q.1 c = multiEta fi S X u q.1 c + multiEta fi S X v q.1 c := by
      intro c
      simp only [multiEta, Prod.fst_add, Prod.snd_add, Pi.add_apply, maskedW_add, mul_add,
        Finset.sum_add_distrib]
      split_ifs <;> ring
    simp only [this, Pi.add_apply]
    ring
  map_smul' a v := by
    funext q
    have : ∀ c, multiEta fi S X (a • v) q.1 c = a * multiEta fi S X v q.1 c := by
      intro c
      simp only [multiEta, Prod.smul_fst, Prod.smul_snd, Pi.smul_apply, maskedW_smul, smul_eq_mul]
      have : ∀ j, X q.1 j * (a * maskedW (S c) (v.1 c) j) = a * (X q.1 j * maskedW (S c) (v.1 c) j) :=
        fun j => by ring
      simp only [this, ← Finset.mul_sum]
      split_ifs <;> ring
    simp only [this, Pi.smul_apply, RingHom.id_apply, smul_eq_mul]
    ring

/-- The coefficients within the mask, in one vector. -/
def maskedLM (S : Fin k → Fin p → Bool) :
    (Fin k → Fin p → ℝ) × (Fin k → ℝ) →ₗ[ℝ] (Fin k × Fin p → ℝ) where
  toFun v q := maskedW (S q.1) (v.1 q.1) q.2
  map_add' u v := funext fun q => maskedW_add (S q.1) (u.1 q.1) (v.1 q.1) q.2
  map_smul' a v := funext fun q => maskedW_smul (S q.1) a (v.1 q.1) q.2

/-- The mean multinomial loss of margins. -/
noncomputable def lossM (m : Fin n × Fin k → ℝ) : ℝ := (∑ i, Real.log (∑ c, Real.exp (-m (i, c)))) / n

theorem multiTarget_eq (C : Option ℝ) (fi : Bool) (S : Fin k → Fin p → Bool) (X : Fin n → Fin p → ℝ)
    (y : Fin n → Fin k) (v : (Fin k → Fin p → ℝ) × (Fin k → ℝ)) :
    multiTarget C fi S X y v = lossM (multiMargin fi S X y v) +
      1 / 2 * invC C * ∑ q, maskedLM S v q * maskedLM S v q := by
  have hb : ∀ c, ((interceptArg fi v.2).getD fun _ => 0) c = if fi then v.2 c else 0 := by
    intro c
    unfold interceptArg
    split_ifs <;> rfl
  have hlp : ∀ (eta : Fin k → ℝ) (c : Fin k),
      logProb eta c = -Real.log (∑ c', Real.exp (-(eta c - eta c'))) := by
    intro eta c
    have : ∀ c', Real.exp (-(eta c - eta c')) = Real.exp (-eta c) * Real.exp (eta c') := fun c' => by
      rw [← Real.exp_add]
      congr 1
      ring
    simp only [this, ← Finset.mul_sum]
    have : Nonempty (Fin k) := ⟨c⟩
    rw [Real.log_mul (Real.exp_pos _).ne' (Finset.sum_pos (fun c' _ => Real.exp_pos _)
      Finset.univ_nonempty).ne', Real.log_exp]
    unfold logProb
    ring
  simp only [multiTarget, multiLossGrad, applyMaskM, hb, one_mul, oneHot, ite_mul, zero_mul,
    Finset.sum_ite_eq, Finset.mem_univ, if_true]
  congr 1
  · unfold lossM
    rw [← Finset.sum_neg_distrib]
    congr 1
    refine Finset.sum_congr rfl fun i _ => ?_
    rw [hlp, neg_neg]
    rfl
  · rw [Fintype.sum_prod_type]
    simp only [maskedLM, LinearMap.coe_mk, AddHom.coe_mk, pow_two]

theorem lossM_continuous [NeZero k] : Continuous (lossM : (Fin n × Fin k → ℝ) → ℝ) := by
  unfold lossM
  refine Continuous.div_const (continuous_finsetSum _ fun i _ => ?_) _
  refine Continuous.log (by fun_prop) fun m => ?_
  exact (Finset.sum_pos (fun c' _ => Real.exp_pos _) Finset.univ_nonempty).ne'

theorem margin_self (fi : Bool) (S : Fin k → Fin p → Bool) (X : Fin n → Fin p → ℝ) (y : Fin n → Fin k)
    (v : (Fin k → Fin p → ℝ) × (Fin k → ℝ)) (i : Fin n) : multiMargin fi S X y v (i, y i) = 0 := by
  simp [multiMargin]

theorem lossM_term {m : Fin n × Fin k → ℝ} {i : Fin n} {c0 : Fin k} (h : m (i, c0) = 0) :
    0 ≤ Real.log (∑ c, Real.exp (-m (i, c))) := by
  refine Real.log_nonneg ?_
  have := Finset.single_le_sum (f := fun c => Real.exp (-m (i, c))) (fun c _ => (Real.exp_pos _).le)
    (Finset.mem_univ c0)
  simpa [h] using this

theorem lossM_nonneg {m : Fin n × Fin k → ℝ} {y : Fin n → Fin k} (h : ∀ i, m (i, y i) = 0) :
    0 ≤ lossM m :=
  div_nonneg (Finset.sum_nonneg fun i _ => lossM_term (h i)) (Nat.cast_nonneg n)

theorem lossM_low {m : Fin n × Fin k → ℝ} {y : Fin n → Fin k} (h : ∀ i, m (i, y i) = 0)
    (q : Fin n × Fin k) : (if n = 0 then (1 : ℝ) else 1 / n) * -m q ≤ lossM m := by
  obtain ⟨i, c⟩ := q
  rw [if_neg (Nat.pos_iff_ne_zero.mp i.pos)]
  have hn : (0 : ℝ) < n := by exact_mod_cast i.pos
  unfold lossM
  rw [one_div, ← div_eq_inv_mul]
  refine div_le_div_of_nonneg_right ?_ hn.le
  have h1 : -m (i, c) ≤ Real.log (∑ c, Real.exp (-m (i, c))) := by
    have : Nonempty (Fin k) := ⟨c⟩
    rw [Real.le_log_iff_exp_le (Finset.sum_pos (fun c' _ => Real.exp_pos _) Finset.univ_nonempty)]
    exact Finset.single_le_sum (f := fun c => Real.exp (-m (i, c))) (fun c _ => (Real.exp_pos _).le)
      (Finset.mem_univ c)
  exact h1.trans (Finset.single_le_sum (f := fun i => Real.log (∑ c, Real.exp (-m (i, c))))
    (fun i _ => lossM_term (h i)) (Finset.mem_univ i))

theorem lossM_lt {m m' : Fin n × Fin k → ℝ} (h : ∀ q, m q ≤ m' q) {i : Fin n} {c : Fin k}
    (hi : m (i, c) < m' (i, c)) : lossM m' < lossM m := by
  have hn : (0 : ℝ) < n := by exact_mod_cast i.pos
  have : Nonempty (Fin k) := ⟨c⟩
  have hpos : ∀ (m : Fin n × Fin k → ℝ) (i : Fin n), 0 < ∑ c, Real.exp (-m (i, c)) := fun m i =>
    Finset.sum_pos (fun c' _ => Real.exp_pos _) Finset.univ_nonempty
  unfold lossM
  refine div_lt_div_of_pos_right (Finset.sum_lt_sum (fun j _ => ?_) ⟨i, Finset.mem_univ i, ?_⟩) hn
  · exact Real.log_le_log (hpos _ _) (Finset.sum_le_sum fun c _ =>
      Real.exp_le_exp.mpr (neg_le_neg (h (j, c))))
  · exact Real.log_lt_log (hpos _ _) (Finset.sum_lt_sum (fun c _ =>
      Real.exp_le_exp.mpr (neg_le_neg (h (i, c)))) ⟨c, Finset.mem_univ c,
        Real.exp_lt_exp.mpr (neg_lt_neg hi)⟩)

theorem multiMargin_score (fi : Bool) (S : Fin k → Fin p → Bool) (X : Fin n → Fin p → ℝ)
    (y : Fin n → Fin k) (v : (Fin k → Fin p → ℝ) × (Fin k → ℝ)) (i : Fin n) (c : Fin k) :
    multiMargin fi S X y v (i, c) =
      score (maskedW (S (y i)) (v.1 (y i))) (if fi then v.2 (y i) else 0) (X i) -
      score (maskedW (S c) (v.1 c)) (if fi then v.2 c else 0) (X i) := by
  simp only [multiMargin, multiEta, LinearMap.coe_mk, AddHom.coe_mk, score]
  simp only [mul_comm (X i _)]

theorem masked_of_within {fi : Bool} {S : Fin p → Bool} {d : Fin p → ℝ} {e : ℝ} (h : Within fi S d e) :
    maskedW S d = d ∧ (if fi = true then e else 0) = e := by
  constructor
  · funext j
    unfold maskedW
    split_ifs with hs
    · rfl
    · exact (h.1 j (by simpa using hs)).symm
  · split_ifs with hf
    · rfl
    · exact (h.2 (by simpa using hf)).symm

/-! ### Uniqueness -/

/-- Two minimisers of the sum of a function that is strictly convex in the margins and a convex one. -/
theorem unique_mid {V ι : Type} [AddCommGroup V] [Module ℝ V] (L : V →ₗ[ℝ] (ι → ℝ))
    (G : (ι → ℝ) → ℝ) (D : V → V → ℝ) (Q : V → ℝ)
    (hG : ∀ u v, L u ≠ L v → G (L ((1 / 2 : ℝ) • u + (1 / 2 : ℝ) • v)) < 1 / 2 * G (L u) + 1 / 2 * G (L v))
    (hQ : ∀ u v, Q ((1 / 2 : ℝ) • u + (1 / 2 : ℝ) • v) ≤ 1 / 2 * Q u + 1 / 2 * Q v - D u v)
    (hD : ∀ u v, 0 ≤ D u v) {u v : V} (hu : ∀ x, G (L u) + Q u ≤ G (L x) + Q x)
    (hv : ∀ x, G (L v) + Q v ≤ G (L x) + Q x) : L u = L v ∧ D u v = 0 := by
  have huv := le_antisymm (hu v) (hv u)
  have hm := hu ((1 / 2 : ℝ) • u + (1 / 2 : ℝ) • v)
  have hq := hQ u v
  have hd := hD u v
  have hL : L u = L v := by
    by_contra hne
    have := hG u v hne
    linarith
  refine ⟨hL, le_antisymm ?_ hd⟩
  have e : L ((1 / 2 : ℝ) • u + (1 / 2 : ℝ) • v) = L u := by
    rw [map_add, map_smul, map_smul, ← hL, ← add_smul]
    norm_num
  rw [e] at hm
  have : Q u = Q v := by rw [hL] at huv; linarith
  linarith

theorem cauchy_strict {κ : Type} [Fintype κ] {a b : κ → ℝ} {c0 : κ} (ha : a c0 = 1) (hb : b c0 = 1)
    (hne : a ≠ b) : (∑ c, a c * b c) ^ 2 < (∑ c, a c ^ 2) * ∑ c, b c ^ 2 := by
  by_contra hle
  push Not at hle
  have hB : 0 < ∑ c, b c ^ 2 := by
    have := Finset.single_le_sum (f := fun c => b c ^ 2) (fun c _ => sq_nonneg _) (Finset.mem_univ c0)
    simp only [hb] at this
    linarith
  have e : ∑ c, ((∑ c, b c ^ 2) * a c - (∑ c, a c * b c) * b c) ^ 2 =
      (∑ c, b c ^ 2) * ((∑ c, a c ^ 2) * (∑ c, b c ^ 2) - (∑ c, a c * b c) ^ 2) := by
    generalize hBd : (∑ c, b c ^ 2) = B
    generalize hPd : (∑ c, a c * b c) = P
    have : ∀ c, (B * a c - P * b c) ^ 2 = B ^ 2 * a c ^ 2 - 2 * B * P * (a c * b c) + P ^ 2 * b c ^ 2 :=
      fun c => by ring
    rw [Finset.sum_congr rfl fun c _ => this c, Finset.sum_add_distrib, Finset.sum_sub_distrib,
      ← Finset.mul_sum, ← Finset.mul_sum, ← Finset.mul_sum, hBd, hPd]
    ring
  have h0 : ∑ c, ((∑ c, b c ^ 2) * a c - (∑ c, a c * b c) * b c) ^ 2 = 0 := by
    refine le_antisymm ?_ (Finset.sum_nonneg fun c _ => sq_nonneg _)
    rw [e]
    exact mul_nonpos_of_nonneg_of_nonpos hB.le (by linarith)
  rw [Finset.sum_eq_zero_iff_of_nonneg fun c _ => sq_nonneg _] at h0
  have hz : ∀ c, (∑ c, b c ^ 2) * a c = (∑ c, a c * b c) * b c := fun c =>
    sub_eq_zero.mp (pow_eq_zero_iff two_ne_zero |>.mp (h0 c (Finset.mem_univ c)))
  have hBP := hz c0
  rw [ha, hb, mul_one, mul_one] at hBP
  refine hne (funext fun c => ?_)
  have := hz c
  rw [← hBP] at this
  exact mul_left_cancel₀ hB.ne' this

/-- Strict convexity of the logarithm of a sum of exponentials, at midpoints. -/
theorem lse_mid_lt {κ : Type} [Fintype κ] {m m' : κ → ℝ} {c0 : κ} (h : m c0 = 0) (h' : m' c0 = 0)
    (hne : m ≠ m') : Real.log (∑ c, Real.exp (-((1 / 2 : ℝ) * m c + 1 / 2 * m' c))) <
      1 / 2 * Real.log (∑ c, Real.exp (-m c)) + 1 / 2 * Real.log (∑ c, Real.exp (-m' c)) := by
  have key := cauchy_strict (a := fun c => Real.exp (-(m c / 2))) (b := fun c => Real.exp (-(m' c / 2)))
    (c0 := c0) (by simp [h]) (by simp [h']) (fun e => hne (funext fun c => by
      have := Real.exp_injective (congrFun e c)
      linarith))
  have e1 : ∀ c, Real.exp (-(m c / 2)) * Real.exp (-(m' c / 2)) =
      Real.exp (-((1 / 2 : ℝ) * m c + 1 / 2 * m' c)) := fun c => by
    rw [← Real.exp_add]
    congr 1
    ring
  have e2 : ∀ x : ℝ, Real.exp (-(x / 2)) ^ 2 = Real.exp (-x) := fun x => by
    rw [pow_two, ← Real.exp_add]
    congr 1
    ring
  simp only [e1, e2] at key
  have : Nonempty κ := ⟨c0⟩
  have hp : ∀ f : κ → ℝ, 0 < ∑ c, Real.exp (f c) := fun f =>
    Finset.sum_pos (fun c _ => Real.exp_pos _) Finset.univ_nonempty
  have hlog := Real.log_lt_log (pow_pos (hp _) 2) key
  rw [Real.log_pow, Real.log_mul (hp _).ne' (hp _).ne'] at hlog
  push_cast at hlog
  linarith

theorem lse_mid_le {κ : Type} [Fintype κ] {m m' : κ → ℝ} {c0 : κ} (h : m c0 = 0) (h' : m' c0 = 0) :
    Real.log (∑ c, Real.exp (-((1 / 2 : ℝ) * m c + 1 / 2 * m' c))) ≤
      1 / 2 * Real.log (∑ c, Real.exp (-m c)) + 1 / 2 * Real.log (∑ c, Real.exp (-m' c)) := by
  by_cases hne : m = m'
  · subst hne
    have : ∀ c, (1 / 2 : ℝ) * m c + 1 / 2 * m c = m c := fun c => by ring
    simp only [this]
    linarith
  · exact (lse_mid_lt h h' hne).le

theorem lossM_mid_lt {m m' : Fin n × Fin k → ℝ} {y : Fin n → Fin k} (h : ∀ i, m (i, y i) = 0)
    (h' : ∀ i, m' (i, y i) = 0) (hne : m ≠ m') :
    lossM ((1 / 2 : ℝ) • m + (1 / 2 : ℝ) • m') < 1 / 2 * lossM m + 1 / 2 * lossM m' := by
  obtain ⟨⟨i, c⟩, hi⟩ := Function.ne_iff.mp hne
  have hn : (0 : ℝ) < n := by exact_mod_cast i.pos
  unfold lossM
  rw [← mul_div_assoc, ← mul_div_assoc, ← add_div, Finset.mul_sum, Finset.mul_sum,
    ← Finset.sum_add_distrib]
  refine div_lt_div_of_pos_right (Finset.sum_lt_sum (fun j _ => ?_) ⟨i, Finset.mem_univ i, ?_⟩) hn
  · exact lse_mid_le (m := fun c => m (j, c)) (m' := fun c => m' (j, c)) (h j) (h' j)
  · exact lse_mid_lt (m := fun c => m (i, c)) (m' := fun c => m' (i, c)) (h i) (h' i)
      (fun e => hi (congrFun e c))

theorem lossB_eq (m : Fin n → ℝ) : lossB m = lossM (fun q : Fin n × Fin 2 => if q.2 = 0 then 0 else m q.1) := by
  unfold lossB lossM
  simp [Fin.sum_univ_two]

theorem lossB_mid_lt {m m' : Fin n → ℝ} (hne : m ≠ m') :
    lossB ((1 / 2 : ℝ) • m + (1 / 2 : ℝ) • m') < 1 / 2 * lossB m + 1 / 2 * lossB m' := by
  obtain ⟨i, hi⟩ := Function.ne_iff.mp hne
  rw [lossB_eq, lossB_eq, lossB_eq]
  have := lossM_mid_lt (m := fun q : Fin n × Fin 2 => if q.2 = 0 then 0 else m q.1)
    (m' := fun q : Fin n × Fin 2 => if q.2 = 0 then 0 else m' q.1) (y := fun _ => 0) (fun _ => if_pos rfl)
    (fun _ => if_pos rfl) (fun e => hi (by simpa using congrFun e (i, 1)))
  refine lt_of_eq_of_lt (congrArg lossM (funext fun q => ?_)) this
  simp only [Pi.add_apply, Pi.smul_apply, smul_eq_mul]
  split_ifs <;> simp

theorem quad_mid {V κ : Type} [AddCommGroup V] [Module ℝ V] [Fintype κ] (W : V →ₗ[ℝ] (κ → ℝ)) (a : ℝ)
    (u v : V) : 1 / 2 * a * ∑ j, W ((1 / 2 : ℝ) • u + (1 / 2 : ℝ) • v) j *
        W ((1 / 2 : ℝ) • u + (1 / 2 : ℝ) • v) j =
      1 / 2 * (1 / 2 * a * ∑ j, W u j * W u j) + 1 / 2 * (1 / 2 * a * ∑ j, W v j * W v j) -
        1 / 8 * a * ∑ j, (W u j - W v j) * (W u j - W v j) := by
  have hq : ∑ j, W ((1 / 2 : ℝ) • u + (1 / 2 : ℝ) • v) j * W ((1 / 2 : ℝ) • u + (1 / 2 : ℝ) • v) j =
      1 / 2 * ∑ j, W u j * W u j + 1 / 2 * ∑ j, W v j * W v j -
        1 / 4 * ∑ j, (W u j - W v j) * (W u j - W v j) := by
    rw [Finset.mul_sum, Finset.mul_sum, Finset.mul_sum, ← Finset.sum_add_distrib,
      ← Finset.sum_sub_distrib]
    refine Finset.sum_congr rfl fun j _ => ?_
    simp only [map_add, map_smul, Pi.add_apply, Pi.smul_apply, smul_eq_mul]
    ring
  rw [hq]
  ring

theorem abs_mid {κ : Type} [Fintype κ] (u v : κ → ℝ) :
    ∑ j, |1 / 2 * u j + 1 / 2 * v j| ≤ 1 / 2 * ∑ j, |u j| + 1 / 2 * ∑ j, |v j| := by
  rw [Finset.mul_sum, Finset.mul_sum, ← Finset.sum_add_distrib]
  refine Finset.sum_le_sum fun j _ => ?_
  refine (abs_add_le _ _).trans ?_
  rw [abs_mul, abs_mul, abs_of_pos (show (0 : ℝ) < 1 / 2 by norm_num)]

theorem binTargetL1_eq (C : ℝ) (fi : Bool) (S : Fin p → Bool) (X : Fin n → Fin p → ℝ)
    (y : Fin n → ℝ) (v : (Fin p → ℝ) × ℝ) :
    binTargetL1 C fi S X y v = lossB (binMargin fi S X y v) + 1 / C * ∑ j, |v.1 j| := by
  have := binTarget_eq none fi S X y v
  simp only [binTarget, invC, mul_zero, zero_mul, add_zero] at this
  simp only [binTargetL1, this]

theorem multiTargetL1_eq (C : ℝ) (fi : Bool) (S : Fin k → Fin p → Bool) (X : Fin n → Fin p → ℝ)
    (y : Fin n → Fin k) (v : (Fin k → Fin p → ℝ) × (Fin k → ℝ)) :
    multiTargetL1 C fi S X y v = lossM (multiMargin fi S X y v) + 1 / C * ∑ c, ∑ j, |v.1 c j| := by
  have := multiTarget_eq none fi S X y v
  simp only [multiTarget, invC, mul_zero, zero_mul, add_zero] at this
  simp only [multiTargetL1, this]

theorem classProb_margin (eta : Fin k → ℝ) (c0 c : Fin k) :
    classProb eta c = Real.exp (-(eta c0 - eta c)) / ∑ c', Real.exp (-(eta c0 - eta c')) := by
  have : ∀ c', Real.exp (-(eta c0 - eta c')) = Real.exp (-eta c0) * Real.exp (eta c') := fun c' => by
    rw [← Real.exp_add]
    congr 1
    ring
  simp only [this, ← Finset.mul_sum]
  rw [mul_div_mul_left _ _ (Real.exp_pos _).ne']
  rfl

end Verif.Logistic
