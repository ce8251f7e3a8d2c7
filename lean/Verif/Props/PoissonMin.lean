import Mathlib.Tactic.FinCases
import Verif.Lemmas.PoissonMin
/-!
When a Poisson fit has a solution, and how far the solution is determined.
-/
namespace Verif.Props
open Verif.Poisson Verif.Spec.LogisticMin Verif.Spec.PoissonMin Filter Topology

variable {n p : Nat}

/-- **C131**: the objective of the estimation model of `UoI_Poisson` (`alpha=0`) has a minimiser exactly if
    no scores vanish where something was counted, are not positive elsewhere, and are negative
    somewhere.  Missing: data with such scores, for which there is none. -/
theorem C131_partial (l1 : ℝ) (fi : Bool) (X : Fin n → Fin p → ℝ) {y : Fin n → ℝ} (hy : ∀ i, 0 ≤ y i) :
    Attained (poisTarget 0 l1 fi X y) ↔ ¬ Receding fi X y := by
  constructor
  · rintro ⟨v, hv⟩ ⟨d, e, hw, hpos, hzero, i, hi⟩
    have h1 := hv (v + (d, e))
    have hs : ∀ i, etaL fi X (d, e) i = score d e (X i) := etaL_score X hw.2
    have hn : (0 : ℝ) < n := by exact_mod_cast i.pos
    have hterm : ∀ i, Real.exp (etaL fi X v i + score d e (X i)) -
        y i * (etaL fi X v i + score d e (X i)) ≤ Real.exp (etaL fi X v i) - y i * etaL fi X v i := by
      intro i
      rcases (hy i).lt_or_eq with h | h
      · rw [hpos i h, add_zero]
      · rw [← h, zero_mul, zero_mul, sub_zero, sub_zero]
        exact Real.exp_le_exp.mpr (by have := hzero i h.symm; linarith)
    have hstrict : Real.exp (etaL fi X v i + score d e (X i)) -
        y i * (etaL fi X v i + score d e (X i)) < Real.exp (etaL fi X v i) - y i * etaL fi X v i := by
      have h : y i = 0 := by
        by_contra hne
        exact absurd (hpos i (lt_of_le_of_ne (hy i) (Ne.symm hne))) hi.ne
      rw [h, zero_mul, zero_mul, sub_zero, sub_zero]
      exact Real.exp_lt_exp.mpr (by linarith)
    refine absurd h1 (not_le.mpr ?_)
    rw [poisTarget_eq, poisTarget_eq]
    simp only [penP, zero_mul, mul_zero, add_zero, map_add, lossP, Pi.add_apply, hs]
    exact div_lt_div_of_pos_right (Finset.sum_lt_sum (fun j _ => hterm j) ⟨i, Finset.mem_univ i, hstrict⟩) hn
  · intro hrec
    refine attained_poisson 0 l1 fi X hy (0 : (Fin p → ℝ) × ℝ →ₗ[ℝ] (Fin 0 → ℝ)) (fun _ => 0)
      (fun v => by simp [penP]) continuous_const (K := 0) one_pos (fun _ j => j.elim0) (fun _ => le_refl 0)
      (le_refl 0) fun v _ hle hz i => ?_
    by_contra hne
    have hs : ∀ i, etaL fi X v i = score v.1 (if fi then v.2 else 0) (X i) := fun i => by
      rw [etaL_cut]
      exact etaL_score X (fun h => by rw [h]; rfl) i
    refine hrec ⟨v.1, if fi then v.2 else 0, ⟨fun j hj => (by cases hj), fun h => by rw [h]; rfl⟩,
      fun i hi => ?_, fun i _ => ?_, i, ?_⟩
    · rw [← hs, hz i hi]
    · rw [← hs]
      exact hle i
    · rw [← hs]
      exact lt_of_le_of_ne (hle i) hne

/-- Counts 0, 1, 0 at -1, 0, 1: there is a solution. -/
example : Attained (poisTarget 0 1 true (![fun _ => -1, fun _ => 0, fun _ => 1] : Fin 3 → Fin 1 → ℝ)
    ![0, 1, 0]) := by
  rw [C131_partial 1 true _ (fun i => by fin_cases i <;> simp)]
  rintro ⟨d, e, -, hpos, hz, i, hi⟩
  have h0 := hz 0 rfl
  have h1 := hpos 1 (by simp)
  have h2 := hz 2 rfl
  simp [score] at h0 h1 h2
  fin_cases i <;> simp [score] at hi <;> linarith

/-- **C131** is false: a feature that is nonzero only where nothing was counted.  The counts are not
    constant, no coefficients and intercept are a solution, and the gradient is as small as one
    likes at coefficients as large as one likes, so that the stopping test of the solver does
    not determine the coefficients. -/
theorem C131_negation : ∃ (X : Fin 3 → Fin 1 → ℝ) (y : Fin 3 → ℝ), (∀ i, 0 ≤ y i) ∧ y 0 ≠ y 2 ∧
    ¬ Attained (poisTarget 0 1 true X y) ∧
    ∀ r tol : ℝ, 0 < tol → ∃ v : (Fin 1 → ℝ) × ℝ, v.1 0 ≤ -r ∧
      (∀ j, |(poisGrad true X y v).1 j| ≤ tol) ∧ ∃ g, (poisGrad true X y v).2 = some g ∧ |g| ≤ tol := by
  refine ⟨![fun _ => 0, fun _ => 0, fun _ => 1], ![1, 1, 0], fun i => by fin_cases i <;> simp, by simp,
    ?_, fun r tol ht => ?_⟩
  · rw [C131_partial 1 true _ (fun i => by fin_cases i <;> simp), not_not]
    refine ⟨fun _ => -1, 0, ⟨fun j hj => (by cases hj), fun h => (by cases h)⟩, fun i hi => ?_,
      fun i hi => ?_, 2, by simp [score]⟩
    · fin_cases i <;> simp [score] at hi ⊢
    · fin_cases i <;> simp [score] at hi ⊢
  · obtain ⟨t, h1, h2⟩ : ∃ t ≥ r, Real.exp (-t) ≤ tol := by
      refine ⟨max r (-Real.log tol), le_max_left .., ?_⟩
      rw [← Real.le_log_iff_exp_le ht]
      have := le_max_right r (-Real.log tol)
      linarith
    have h3 := Real.exp_pos (-t)
    refine ⟨(fun _ => -t, 0), by simpa using h1, fun j => ?_, _, rfl, ?_⟩
    · simp only [poisGrad, lossGrad, interceptEntry, dot, Fin.sum_univ_three, Fin.sum_univ_one]
      simp
      rw [abs_of_nonneg (by positivity)]
      linarith
    · simp only [interceptEntry, dot, Fin.sum_univ_three, Fin.sum_univ_one]
      simp
      rw [neg_div, abs_neg, abs_of_nonneg (by positivity)]
      linarith

/-- With at least as many features as rows, in general position, there is no solution as soon as some count
    is zero: if the scores can take all values on the rows. -/
theorem C131_interpolating (l1 : ℝ) (fi : Bool) (X : Fin n → Fin p → ℝ) {y : Fin n → ℝ}
    (hy : ∀ i, 0 ≤ y i) (h : ∀ t : Fin n → ℝ, ∃ d e, Within fi (fun _ => true) d e ∧
      ∀ i, score d e (X i) = t i) (h0 : ∃ i, y i = 0) : ¬ Attained (poisTarget 0 l1 fi X y) := by
  rw [C131_partial l1 fi X hy, not_not]
  obtain ⟨i, hi⟩ := h0
  obtain ⟨d, e, hw, hd⟩ := h fun i => if y i = 0 then -1 else 0
  refine ⟨d, e, hw, fun i hi => ?_, fun i hi => ?_, i, ?_⟩
  · rw [hd, if_neg hi.ne']
  · rw [hd, if_pos hi]
    norm_num
  · rw [hd, if_pos hi]
    norm_num

/-- Two rows, two features, counts 3 and 0. -/
example : ¬ Attained (poisTarget 0 1 false (![![1, 0], ![1, 1]] : Fin 2 → Fin 2 → ℝ) ![3, 0]) :=
  C131_interpolating _ _ _ (fun i => by fin_cases i <;> simp) (fun t => ⟨![t 0, t 1 - t 0], 0,
    ⟨fun j hj => (by cases hj), fun _ => rfl⟩,
    fun i => by fin_cases i <;> simp [score, Fin.sum_univ_two]⟩) ⟨1, rfl⟩

/-- Any positive penalty, as in the selection model: there is a solution if no intercept is fitted, or
    something was counted. -/
theorem C131_penalised {alpha l1 : ℝ} (ha : 0 < alpha) (h0 : 0 ≤ l1) (h1 : l1 ≤ 1) (fi : Bool)
    (X : Fin n → Fin p → ℝ) {y : Fin n → ℝ} (hy : ∀ i, 0 ≤ y i) (h : fi = true → ∃ i, 0 < y i) :
    Attained (poisTarget alpha l1 fi X y) := by
  refine attained_poisson alpha l1 fi X hy (LinearMap.fst ℝ (Fin p → ℝ) ℝ) (penP alpha l1)
    (fun v => rfl) (by unfold penP; fun_prop) ha (penP_low ha.le h0 h1) (penP_nonneg ha.le h0 h1)
    (by have := mul_nonneg ha.le (sub_nonneg.mpr h1); linarith) fun v hw hle hz i => ?_
  have hw' : ∀ j, v.1 j = 0 := hw
  have he : ∀ i, etaL fi X v i = if fi then v.2 else 0 := fun i => by
    simp [etaL, dot, hw']
  rw [he]
  cases fi with
  | false => rfl
  | true =>
    obtain ⟨i', hi'⟩ := h rfl
    rw [← he i', hz i' hi']

/-- The data of `C131_negation`. -/
example : Attained (poisTarget (1 / 1000) 1 true (![fun _ => 0, fun _ => 0, fun _ => 1] : Fin 3 → Fin 1 → ℝ)
    ![1, 1, 0]) :=
  C131_penalised (by norm_num) zero_le_one (le_refl 1) _ _ (fun i => by fin_cases i <;> simp)
    fun _ => ⟨0, by simp⟩

/-- Any two solutions have the same linear predictor, hence the same predicted mean, on every training row;
    with an L2 part they have the same coefficients. -/
theorem C131_unique {alpha l1 : ℝ} (ha : 0 ≤ alpha) (h0 : 0 ≤ l1) (h1 : l1 ≤ 1) (fi : Bool)
    (X : Fin n → Fin p → ℝ) (y : Fin n → ℝ) {u v : (Fin p → ℝ) × ℝ}
    (hu : ∀ x, poisTarget alpha l1 fi X y u ≤ poisTarget alpha l1 fi X y x)
    (hv : ∀ x, poisTarget alpha l1 fi X y v ≤ poisTarget alpha l1 fi X y x) :
    (∀ i, score u.1 (if fi then u.2 else 0) (X i) = score v.1 (if fi then v.2 else 0) (X i)) ∧
    (0 < alpha → l1 < 1 → u.1 = v.1) := by
  have huv : poisTarget alpha l1 fi X y u = poisTarget alpha l1 fi X y v := le_antisymm (hu v) (hv u)
  have hm := hu ((1 / 2 : ℝ) • u + (1 / 2 : ℝ) • v)
  have hpen := penP_mid ha h0 u.1 v.1
  rw [poisTarget_eq] at huv
  rw [poisTarget_eq] at huv hm
  rw [poisTarget_eq, map_add, map_smul, map_smul] at hm
  simp only [Prod.fst_add, Prod.smul_fst] at hm
  have hq : 0 ≤ alpha * (1 - l1) * ∑ j, (u.1 j - v.1 j) * (u.1 j - v.1 j) :=
    mul_nonneg (mul_nonneg ha (by linarith)) (Finset.sum_nonneg fun j _ => mul_self_nonneg _)
  have heta : etaL fi X u = etaL fi X v := by
    by_contra hne
    have := lossP_mid_lt y hne
    linarith
  refine ⟨fun i => ?_, fun hal hl => ?_⟩
  · have e : ∀ v : (Fin p → ℝ) × ℝ, etaL fi X v i = score v.1 (if fi then v.2 else 0) (X i) := fun v => by
      rw [etaL_cut]
      exact etaL_score X (fun h => by rw [h]; rfl) i
    rw [← e, ← e, heta]
  · have := lossP_mid y (etaL fi X u) (etaL fi X v)
    have hz : alpha * (1 - l1) * ∑ j, (u.1 j - v.1 j) * (u.1 j - v.1 j) = 0 := by linarith
    have hs := (mul_eq_zero.mp hz).resolve_left (mul_pos hal (by linarith)).ne'
    rw [Finset.sum_eq_zero_iff_of_nonneg fun j _ => mul_self_nonneg _] at hs
    funext j
    have := mul_self_eq_zero.mp (hs j (Finset.mem_univ j))
    linarith

/-- A repeated feature: the solution is not unique, but what it predicts is. -/
example : ∃ u v : (Fin 2 → ℝ) × ℝ, u.1 ≠ v.1 ∧
    (∀ x, poisTarget 0 1 false (fun _ _ => 1 : Fin 1 → Fin 2 → ℝ) (fun _ => 1) u ≤
      poisTarget 0 1 false (fun _ _ => 1 : Fin 1 → Fin 2 → ℝ) (fun _ => 1) x) ∧
    (∀ x, poisTarget 0 1 false (fun _ _ => 1 : Fin 1 → Fin 2 → ℝ) (fun _ => 1) v ≤
      poisTarget 0 1 false (fun _ _ => 1 : Fin 1 → Fin 2 → ℝ) (fun _ => 1) x) ∧
    score u.1 0 (fun _ => 1) = score v.1 0 (fun _ => 1) := by
  have key : ∀ u : (Fin 2 → ℝ) × ℝ, u.1 0 + u.1 1 = 0 →
      ∀ x, poisTarget 0 1 false (fun _ _ => 1 : Fin 1 → Fin 2 → ℝ) (fun _ => 1) u ≤
        poisTarget 0 1 false (fun _ _ => 1 : Fin 1 → Fin 2 → ℝ) (fun _ => 1) x := by
    intro u hu x
    have := Real.add_one_le_exp (x.1 0 + x.1 1)
    simp [poisTarget_eq, lossP, penP, etaL, dot, Fin.sum_univ_two, hu]
    linarith
  have hu := key (0, 0) (by simp)
  have hv := key (![1, -1], 0) (by simp)
  exact ⟨_, _, fun h => by simpa using congrFun h 0, hu, hv,
    (C131_unique (le_refl 0) zero_le_one (le_refl 1) false _ _ hu hv).1 0⟩

end Verif.Props
