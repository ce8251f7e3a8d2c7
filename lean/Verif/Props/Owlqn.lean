import Mathlib.Algebra.Order.BigOperators.Group.Finset
import Mathlib.Analysis.Calculus.Deriv.Basic
import Mathlib.Analysis.Calculus.Deriv.Add
import Mathlib.Analysis.Calculus.Deriv.Mul
import Mathlib.Analysis.Calculus.LocalExtr.Basic
import Mathlib.Tactic.Linarith
import Mathlib.Tactic.Ring
import Mathlib.Tactic.NormNum
import Mathlib.Tactic.Positivity
import Verif.Model.Lbfgs
import Verif.Spec.Lbfgs
import Verif.Lemmas.Owlqn
/-!
The orthant-wise part of the minimiser: pseudo-gradient and projected trial points (C63, C64).
-/
namespace Verif.Lbfgs
open Finset Spec
variable {n : Nat} {σ K : Type} [Field K] [LinearOrder K] [IsStrictOrderedRing K]

/-- C63.  In every penalised coordinate the pseudo-gradient is the subgradient of `F + c |x|` of least
    absolute value; in the others it is the gradient. -/
theorem C63_min_norm {c : K} (hc : 0 ≤ c) (start stop : Int) (x g : Fin n → K) (i : Fin n) :
    if Penalised start stop i then
      IsSubgrad c (x i) (g i) (pseudoGradient x g c start stop i) ∧
        ∀ v, IsSubgrad c (x i) (g i) v → |pseudoGradient x g c start stop i| ≤ |v|
    else pseudoGradient x g c start stop i = g i := by
  by_cases hp : Penalised start stop i
  · rw [if_pos hp]
    have hp' : start ≤ (i.val : Int) ∧ (i.val : Int) < stop := hp
    simp only [isSubgrad_iff hc, pseudoGradient, if_pos hp']
    rcases lt_trichotomy (x i) 0 with hx | hx | hx
    · rw [if_pos hx]
      exact ⟨⟨fun h => absurd h hx.not_gt, fun _ => rfl, fun h => absurd h hx.ne⟩,
        fun v hv => (hv.2.1 hx) ▸ le_refl _⟩
    · rw [if_neg (by rw [hx]; exact lt_irrefl _), if_neg (by rw [hx]; exact lt_irrefl _)]
      refine ⟨⟨fun h => absurd h (by rw [hx]; exact lt_irrefl _),
        fun h => absurd h (by rw [hx]; exact lt_irrefl _), fun _ => ?_⟩, fun v hv => ?_⟩
      · split_ifs with h1 h2
        · rw [abs_le]; constructor <;> linarith
        · rw [abs_le]; constructor <;> linarith
        · rw [abs_le]; constructor <;> linarith [not_lt.1 h1, not_lt.1 h2]
      · have := abs_le.1 (hv.2.2 hx)
        split_ifs with h1 h2
        · rw [abs_of_neg (by linarith)]
          exact le_trans (by linarith) (neg_le_abs v)
        · rw [abs_of_pos (by linarith)]
          exact le_trans (by linarith) (le_abs_self v)
        · simp
    · rw [if_neg hx.not_gt, if_pos hx]
      exact ⟨⟨fun _ => rfl, fun h => absurd h hx.not_gt, fun h => absurd h hx.ne'⟩,
        fun v hv => (hv.1 hx) ▸ le_refl _⟩
  · rw [if_neg hp]
    exact if_neg hp

/-- A point with coordinates in every case; the last one is not penalised. -/
example : (pseudoGradient (n := 6) (![1, -1, 0, 0, 0, 2] : Fin 6 → ℚ) ![-3, 1/2, -3, 3, 1/2, 5] 2 0 5) =
    ![-1, -3/2, -1, 1, 0, 5] := by decide +kernel

/-- C63.  The pseudo-gradient vanishes exactly at the points satisfying the first-order optimality
    conditions. -/
theorem C63_zero_iff {c : K} (hc : 0 ≤ c) (start stop : Int) (x g : Fin n → K) :
    (∀ i, pseudoGradient x g c start stop i = 0) ↔ FirstOrder c start stop x g := by
  unfold FirstOrder
  refine forall_congr' fun i => ?_
  have h := C63_min_norm hc start stop x g i
  by_cases hp : Penalised start stop i
  · simp only [if_pos hp] at h ⊢
    have hz : pseudoGradient x g c start stop i = 0 ↔ IsSubgrad c (x i) (g i) 0 := by
      constructor
      · intro e; rw [← e]; exact h.1
      · intro hs
        have := h.2 0 hs
        rwa [abs_zero, abs_nonpos_iff] at this
    rw [hz, isSubgrad_iff hc, zero_sub, abs_neg]
    refine and_congr (imp_congr_right fun _ => ?_) (and_congr (imp_congr_right fun _ => ?_) Iff.rfl)
    · constructor <;> intro e <;> linarith
    · constructor <;> intro e <;> linarith
  · simp only [if_neg hp] at h ⊢
    rw [h]

example : FirstOrder (n := 3) (2 : ℚ) 0 2 ![1, 0, 7] ![-2, 1, 0] := by
  intro i; fin_cases i <;> simp [Penalised, FirstOrder]

/-- C63.  For a convex `F` the points where the pseudo-gradient vanishes are global minimisers of the
    penalised objective. -/
theorem C63_minimiser {c : K} (hc : 0 ≤ c) (start stop : Int) (F : (Fin n → K) → K)
    (G : (Fin n → K) → Fin n → K) (hF : ConvexGrad F G) (x : Fin n → K)
    (hx : ∀ i, pseudoGradient x (G x) c start stop i = 0) (y : Fin n → K) :
    F x + c * l1 start stop x ≤ F y + c * l1 start stop y := by
  have h1 := hF x y
  have h2 : c * l1 start stop x ≤ c * l1 start stop y + dot (G x) (fun i => y i - x i) := by
    unfold l1 dot
    rw [Finset.sum_filter, Finset.sum_filter, Finset.mul_sum, Finset.mul_sum, ← Finset.sum_add_distrib]
    refine Finset.sum_le_sum fun i _ => ?_
    have h := C63_min_norm hc start stop x (G x) i
    by_cases hp : Penalised start stop i
    · simp only [if_pos hp] at h ⊢
      have := h.1 (y i)
      rw [hx i] at this
      linarith
    · simp only [if_neg hp] at h ⊢
      rw [← h, hx i]; simp
  linarith

example : ConvexGrad (n := 2) (fun x : Fin 2 → ℚ => x 0 ^ 2 + x 1 ^ 2) (fun x i => 2 * x i) := by
  intro x y
  simp only [dot, Fin.sum_univ_two]
  nlinarith [sq_nonneg (y 0 - x 0), sq_nonneg (y 1 - x 1)]

/-- C63.  Conversely, at a minimiser of `F + c |x|` the pseudo-gradient vanishes, for every `F` with
    partial derivatives (convex or not). -/
theorem C63_necessary {c : ℝ} (hc : 0 ≤ c) (start stop : Int) (F : (Fin n → ℝ) → ℝ) (x g : Fin n → ℝ)
    (hF : ∀ i, HasDerivAt (fun t => F (Function.update x i t)) (g i) (x i))
    (hm : ∀ y, F x + c * l1 start stop x ≤ F y + c * l1 start stop y) (i : Fin n) :
    pseudoGradient x g c start stop i = 0 := by
  have hl : ∀ t, l1 start stop (Function.update x i t) = l1 start stop x +
      (if Penalised start stop i then |t| - |x i| else 0) := by
    intro t
    unfold l1
    rw [Finset.sum_filter, Finset.sum_filter, ← Finset.add_sum_erase _ _ (Finset.mem_univ i),
      ← Finset.add_sum_erase (a := i) _ (fun j => if Penalised start stop j then |x j| else 0)
        (Finset.mem_univ i)]
    have : ∑ j ∈ univ.erase i, (if Penalised start stop j then |Function.update x i t j| else 0) =
        ∑ j ∈ univ.erase i, (if Penalised start stop j then |x j| else 0) := by
      refine Finset.sum_congr rfl fun j hj => ?_
      rw [Function.update_of_ne (Finset.ne_of_mem_erase hj)]
    rw [this, Function.update_self]
    split_ifs <;> ring
  have h := C63_min_norm hc start stop x g i
  by_cases hp : Penalised start stop i
  · simp only [if_pos hp] at h hl
    have hs : IsSubgrad c (x i) (g i) 0 := by
      refine zero_of_min hc (hF i) fun t => ?_
      have := hm (Function.update x i t)
      rw [hl t] at this
      rw [Function.update_eq_self]
      linarith
    have := h.2 0 hs
    rwa [abs_zero, abs_nonpos_iff] at this
  · simp only [if_neg hp] at h hl
    rw [h]
    have hloc : IsLocalMin (fun t => F (Function.update x i t)) (x i) := by
      refine Filter.Eventually.of_forall fun t => ?_
      have := hm (Function.update x i t)
      rw [hl t] at this
      simp only [Function.update_eq_self]
      linarith
    exact hloc.hasDerivAt_eq_zero (hF i)

/-- `x₀² / 2 - x₀ + |x₀|` is minimal at 0. -/
example : (∀ i, HasDerivAt (fun t => (fun x : Fin 1 → ℝ => x 0 ^ 2 / 2 - x 0)
      (Function.update (fun _ => 0) i t)) ((fun _ => -1 : Fin 1 → ℝ) i) 0) ∧
    ∀ y : Fin 1 → ℝ, (0 : ℝ) ^ 2 / 2 - 0 + 1 * l1 0 1 (fun _ : Fin 1 => (0 : ℝ)) ≤
      y 0 ^ 2 / 2 - y 0 + 1 * l1 0 1 y := by
  constructor
  · intro i
    fin_cases i
    have h : (fun t : ℝ => (fun x : Fin 1 → ℝ => x 0 ^ 2 / 2 - x 0)
        (Function.update (fun _ => 0) (0 : Fin 1) t)) = fun t => t * t / 2 - t := by
      funext t; simp [pow_two]
    simp only [Fin.zero_eta]
    rw [h]
    have := ((((hasDerivAt_id (0 : ℝ)).mul (hasDerivAt_id (0 : ℝ))).div_const 2).sub
      (hasDerivAt_id (0 : ℝ)))
    exact this.congr_deriv (by norm_num)
  · intro y
    have h0 : ∀ z : Fin 1 → ℝ, l1 0 1 z = |z 0| := by
      intro z
      simp [l1, Penalised]
    rw [h0, h0]
    have := le_abs_self (y 0)
    have := sq_nonneg (y 0)
    simp
    nlinarith

/-- C64.  Every point at which an orthant-wise line search evaluates the objective lies in the orthant
    of the current point (of minus the pseudo-gradient where that is zero) in every penalised
    coordinate, and on the ray along the direction in the others. -/
theorem C64_orthant (env : Env n σ K) (p : Par K) (x : Fin n → K) (f : K) (g pg s : Fin n → K) (stp : K)
    (t : Fin n → K) (ht : t ∈ (backtrackingOwlqn env p x f g pg s stp).trials) :
    ∃ a : K, 0 < a ∧ a ≤ stp ∧ ∀ i, if Penalised p.start p.stop i then
        SameOrthant (x i) (pg i) (t i) ∧ (t i = x i + a * s i ∨ t i = 0)
      else t i = x i + a * s i := by
  unfold backtrackingOwlqn at ht
  split_ifs at ht with h0
  · simp at ht
  · rcases owlqnLoop_trials env p x pg _ s f _ _ _ _ (not_le.1 h0) t ht with h | ⟨a, ha, hle, rfl⟩
    · simp at h
    refine ⟨a, ha, hle, fun i => ?_⟩
    by_cases hp : Penalised p.start p.stop i
    · have hp' : p.start ≤ (i.val : Int) ∧ (i.val : Int) < p.stop := hp
      rw [if_pos hp]
      simp only [project, if_pos hp', vecadd, feq_iff]
      by_cases hx : x i = 0
      · rw [if_pos hx]
        split_ifs with hw
        · simp [SameOrthant]
        · have hw := not_le.1 hw
          refine ⟨⟨fun h => absurd hx h.ne', fun h => absurd hx h.ne, fun _ => ⟨fun hv => ?_,
            fun hv => ?_, fun hv => ?_⟩⟩, .inl rfl⟩
          · exact (neg_of_mul_pos_left hw (by linarith)).le
          · exact (pos_of_mul_pos_left hw (by linarith)).le
          · rw [hv] at hw; simp at hw
      · rw [if_neg hx]
        split_ifs with hw
        · simp [SameOrthant]
        · have hw := not_le.1 hw
          exact ⟨⟨fun h => (pos_of_mul_pos_left hw h.le).le, fun h => (neg_of_mul_pos_left hw h.le).le,
            fun h => absurd h hx⟩, .inl rfl⟩
    · rw [if_neg hp]
      exact if_neg hp

/-- An objective that never decreases: the search makes its three trials, all on the right side of the
    orthant boundaries although the direction crosses them. -/
example : ((backtrackingOwlqn (n := 3) (σ := Unit)
      (⟨id, fun x => (100 * (x 0 - 1) ^ 2 + x 1 + 1, fun _ => 0), fun s _ _ _ _ _ _ _ _ => (0, s)⟩ : Env 3 Unit ℚ)
      ⟨5, 0, 0, 0, 0, 2, 3, 0, 100, 1/4, 9/10, 9/10, 0, 1, 0, 2⟩ ![1, 0, 0] 0 ![0, 0, 0] ![1, -1, 3]
      ![-2, -3, -3] 1).trials.map fun t => (t 0, t 1, t 2)) =
    [(1/2, 0, -3/4), (0, 0, -3/2), (0, 0, -3)] := by decide +kernel

end Verif.Lbfgs
