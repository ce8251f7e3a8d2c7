import Mathlib.Algebra.Order.BigOperators.Group.Finset
import Mathlib.Analysis.Calculus.Deriv.Basic
import Mathlib.Analysis.Calculus.Deriv.Add
import Mathlib.Analysis.Calculus.Deriv.Mul
import Mathlib.Analysis.Calculus.LocalExtr.Basic
import Mathlib.Tactic.Linarith
import Mathlib.Tactic.Ring
import Mathlib.Tactic.NormNum
import Mathlib.Tactic.Positivity
import Verif.Model.Lbfgs
import Verif.Spec.Lbfgs
/-! Helper lemmas for the orthant-wise functions. -/
namespace Verif.Lbfgs
open Finset Spec
variable {n : Nat} {σ K : Type} [Field K] [LinearOrder K] [IsStrictOrderedRing K]

theorem vsum_eq (f : Fin n → K) : vsum f = ∑ i, f i := by
  have h : ∀ (l : List (Fin n)) (a : K), l.foldl (fun s i => s + f i) a = a + (l.map f).sum := by
    intro l
    induction l with
    | nil => intro a; simp
    | cons b l ih => intro a; simp only [List.foldl_cons, ih, List.map_cons, List.sum_cons]; ring
  rw [vsum, h, zero_add, ← List.ofFn_eq_map, List.sum_ofFn]

theorem vecdot_eq (x y : Fin n → K) : vecdot x y = dot x y := vsum_eq _

theorem fabs_eq (a : K) : fabs a = |a| := by
  unfold fabs
  split_ifs with h
  · rw [abs_of_neg h]
  · rw [abs_of_nonneg (not_lt.1 h)]

theorem feq_iff {a b : K} : feq a b ↔ a = b := by
  unfold feq
  exact ⟨fun h => le_antisymm h.1 h.2, fun h => ⟨h.le, h.ge⟩⟩

theorem x1norm_eq (x : Fin n → K) (start stop : Int) : x1norm x start stop = l1 start stop x := by
  unfold x1norm l1
  have h : ∀ (l : List (Fin n)) (a : K),
      l.foldl (fun s i => s + fabs (x i)) a = a + (l.map fun i => |x i|).sum := by
    intro l
    induction l with
    | nil => intro a; simp
    | cons b l ih =>
      intro a
      rw [List.foldl_cons, ih, List.map_cons, List.sum_cons, fabs_eq]
      ring
  have h2 : ∀ l : List (Fin n),
      ((l.filter fun i => decide (start ≤ (i.val : Int) ∧ (i.val : Int) < stop)).map
        fun i => |x i|).sum = (l.map fun i => if Penalised start stop i then |x i| else 0).sum := by
    intro l
    induction l with
    | nil => rfl
    | cons b l ih =>
      by_cases hb : start ≤ (b.val : Int) ∧ (b.val : Int) < stop
      · rw [List.filter_cons_of_pos (by simpa using hb), List.map_cons, List.map_cons, List.sum_cons,
          List.sum_cons, ih, if_pos (show Penalised start stop b from hb)]
      · rw [List.filter_cons_of_neg (by simpa using hb), List.map_cons, List.sum_cons, ih,
          if_neg (show ¬ Penalised start stop b from hb), zero_add]
  rw [h, zero_add, h2, ← List.ofFn_eq_map, List.sum_ofFn, Finset.sum_filter]

/-- The subgradients of `c |.|` shifted by `g`, spelled out. -/
theorem isSubgrad_iff {c x g v : K} (hc : 0 ≤ c) :
    IsSubgrad c x g v ↔ (0 < x → v = g + c) ∧ (x < 0 → v = g - c) ∧ (x = 0 → |v - g| ≤ c) := by
  unfold IsSubgrad
  constructor
  · intro h
    have h0 := h 0
    have h2 := h (2 * x)
    simp only [abs_zero, mul_zero, abs_mul, abs_two] at h0 h2
    refine ⟨fun hx => ?_, fun hx => ?_, fun hx => ?_⟩
    · rw [abs_of_pos hx] at h0 h2
      have e : (v - g - c) * x = 0 := le_antisymm (by linarith) (by linarith)
      rcases mul_eq_zero.1 e with e | e <;> linarith
    · rw [abs_of_neg hx] at h0 h2
      have e : (v - g + c) * x = 0 := le_antisymm (by linarith) (by linarith)
      rcases mul_eq_zero.1 e with e | e <;> linarith
    · have h1 := h 1
      have h1' := h (-1)
      simp only [hx, abs_zero, abs_neg, abs_one, mul_zero, sub_zero] at h1 h1'
      rw [abs_le]
      constructor <;> linarith
  · rintro ⟨hp, hn, hz⟩ t
    rcases lt_trichotomy x 0 with hx | hx | hx
    · rw [hn hx, abs_of_neg hx]
      have := mul_le_mul_of_nonneg_left (neg_abs_le t) hc
      linarith
    · have hz := hz hx
      rw [hx, abs_zero, sub_zero, mul_zero, zero_add]
      calc (v - g) * t ≤ |(v - g) * t| := le_abs_self _
        _ = |v - g| * |t| := abs_mul _ _
        _ ≤ c * |t| := mul_le_mul_of_nonneg_right hz (abs_nonneg t)
    · rw [hp hx, abs_of_pos hx]
      have := mul_le_mul_of_nonneg_left (le_abs_self t) hc
      linarith

/-- Necessity in one coordinate. -/
theorem zero_of_min {F : ℝ → ℝ} {g c x : ℝ} (hc : 0 ≤ c) (hF : HasDerivAt F g x)
    (hm : ∀ t, F x + c * |x| ≤ F t + c * |t|) : IsSubgrad c x g 0 := by
  rw [isSubgrad_iff hc]
  -- the derivative of a function on one side of `x`
  have key : ∀ s : ℝ, (∃ ε > 0, ∀ t, |t - x| < ε → c * |t| ≤ c * |x| + s * (t - x)) → g + s = 0 := by
    rintro s ⟨ε, hε, h⟩
    have hd : HasDerivAt (fun t => F t + s * (t - x)) (g + s * 1) x :=
      hF.add (((hasDerivAt_id x).sub_const x).const_mul s)
    have hloc : IsLocalMin (fun t => F t + s * (t - x)) x := by
      refine Filter.Eventually.mono (Metric.ball_mem_nhds x hε) fun t ht => ?_
      have := h t (by simpa [Real.dist_eq] using ht)
      have := hm t
      simp only [sub_self, mul_zero, add_zero]
      linarith
    have := hloc.hasDerivAt_eq_zero hd
    linarith
  refine ⟨fun hx => ?_, fun hx => ?_, fun hx => ?_⟩
  · have := key c ⟨x, hx, fun t ht => ?_⟩
    · linarith
    · rw [abs_lt] at ht
      rw [abs_of_pos hx, abs_of_pos (by linarith : 0 < t)]
      linarith
  · have := key (-c) ⟨-x, by linarith, fun t ht => ?_⟩
    · linarith
    · rw [abs_lt] at ht
      rw [abs_of_neg hx, abs_of_neg (by linarith : t < 0)]
      linarith
  · subst hx
    rw [zero_sub, abs_neg]
    by_contra hlt
    have hlt : c < |g| := not_le.1 hlt
    -- the difference quotients are close to `g`
    have hq := (hasDerivAt_iff_isLittleO.1 hF).def (c := (|g| - c) / 2) (by linarith)
    rw [Metric.eventually_nhds_iff] at hq
    obtain ⟨ε, hε, h⟩ := hq
    have hm' : ∀ t, |t| < ε → 0 ≤ g * t + (|g| - c) / 2 * |t| + c * |t| := by
      intro t ht
      have h1 := h (y := t) (by simpa [Real.dist_eq] using ht)
      simp only [sub_zero, smul_eq_mul, Real.norm_eq_abs] at h1
      have h2 := (abs_le.1 h1).2
      have h3 := hm t
      simp only [abs_zero, mul_zero, add_zero] at h3
      nlinarith
    rcases le_total 0 g with hg | hg
    · have := hm' (-(ε / 2)) (by rw [abs_neg, abs_of_pos (by linarith)]; linarith)
      rw [abs_neg, abs_of_pos (by linarith : 0 < ε / 2), abs_of_nonneg hg] at this
      rw [abs_of_nonneg hg] at hlt
      nlinarith
    · have := hm' (ε / 2) (by rw [abs_of_pos (by linarith)]; linarith)
      rw [abs_of_pos (by linarith : 0 < ε / 2), abs_of_nonpos hg] at this
      rw [abs_of_nonpos hg] at hlt
      nlinarith

/-- Every trial point of the orthant-wise loop is a projected point. -/
theorem owlqnLoop_trials (env : Env n σ K) (p : Par K) (xp pg wp s : Fin n → K) (finit : K) :
    ∀ (rem count : Nat) (stp : K) (tr : List (Fin n → K)), 0 < stp →
      ∀ t ∈ (owlqnLoop env p xp pg wp s finit rem count stp tr).trials,
        t ∈ tr ∨ ∃ a : K, 0 < a ∧ a ≤ stp ∧ t = project (vecadd xp s a) wp p.start p.stop := by
  intro rem
  induction rem with
  | zero => intro count stp tr _ t ht; exact .inl ht
  | succ rem ih =>
    intro count stp tr hs t ht
    have hx : ∀ t, t ∈ project (vecadd xp s stp) wp p.start p.stop :: tr →
        t ∈ tr ∨ ∃ a : K, 0 < a ∧ a ≤ stp ∧ t = project (vecadd xp s a) wp p.start p.stop := by
      intro t ht
      rcases List.mem_cons.1 ht with rfl | ht
      · exact .inr ⟨stp, hs, le_refl _, rfl⟩
      · exact .inl ht
    simp only [owlqnLoop] at ht
    split_ifs at ht
    · exact hx t ht
    · exact hx t ht
    · exact hx t ht
    · exact hx t ht
    · have hh : stp * const 1 2 = stp / 2 := by simp [const]; ring
      rw [hh] at ht
      rcases ih _ _ _ (by linarith) t ht with h | ⟨a, ha, hle, h⟩
      · exact hx t h
      · exact .inr ⟨a, ha, by linarith, h⟩

end Verif.Lbfgs
