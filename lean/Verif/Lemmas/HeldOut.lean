import Mathlib.Tactic.Linarith
import Mathlib.Tactic.FieldSimp
import Mathlib.Tactic.Ring
import Mathlib.Algebra.Order.BigOperators.Group.List
import Verif.Model.HeldOut
import Verif.Spec.HeldOut
import Verif.Lemmas.Fit
/-!
Lemmas about the choice of a candidate by held-out error.
-/
namespace Verif.HeldOut
open Verif.Py Verif.Spec.HeldOut

variable {K : Type} [LinearOrder K] [Field K]

omit [LinearOrder K] in
theorem residual_eq (y p : List K) : residual y p = sqError y p := by
  unfold residual sqError
  congr 1
  rw [List.zip, List.map_zipWith]
  simp only [pow_two]

theorem sqError_nonneg [IsStrictOrderedRing K] (y p : List K) : 0 ≤ sqError y p := by
  unfold sqError
  refine List.sum_nonneg fun x hx => ?_
  obtain ⟨q, -, rfl⟩ := List.mem_map.mp hx
  exact mul_self_nonneg _

theorem spread_pos [IsStrictOrderedRing K] {y : List K} (h : Varies y) : 0 < spread y := by
  unfold spread
  obtain ⟨a, ha, b, hb, hne⟩ := h
  have hn : ∀ x ∈ y.map fun a => (a - y.sum / y.length) ^ 2, 0 ≤ x := by
    intro x hx
    obtain ⟨c, -, rfl⟩ := List.mem_map.mp hx
    exact sq_nonneg _
  refine lt_of_le_of_ne (List.sum_nonneg hn) fun h0 => hne ?_
  have hz : ∀ x ∈ y, (x - y.sum / y.length) ^ 2 = 0 := by
    intro x hx
    refine le_antisymm ?_ (sq_nonneg _)
    rw [h0]
    exact List.single_le_sum hn _ (List.mem_map.mpr ⟨x, hx, rfl⟩)
  have e : ∀ x ∈ y, x = y.sum / y.length := fun x hx => by
    have := pow_eq_zero_iff (two_ne_zero) |>.mp (hz x hx)
    linarith
  rw [e a ha, e b hb]

omit [LinearOrder K] in
theorem spread_const [CharZero K] {y : List K} (h : ¬ Varies y) : spread y = 0 := by
  cases y with
  | nil => rfl
  | cons a l =>
    have he : ∀ x ∈ a :: l, x = a := by
      intro x hx
      by_contra hne
      exact h ⟨x, hx, a, List.mem_cons_self .., hne⟩
    have e : a :: l = List.replicate (l.length + 1) a := List.eq_replicate_iff.mpr ⟨rfl, he⟩
    rw [e]
    unfold spread
    simp only [List.map_replicate, List.sum_replicate, List.length_replicate, nsmul_eq_mul]
    have : ((l.length + 1 : Nat) : K) ≠ 0 := Nat.cast_ne_zero.mpr (by omega)
    rw [mul_div_cancel_left₀ _ this, sub_self]
    simp

omit [LinearOrder K] [Field K] in
theorem two_le_of_varies {y : List K} (h : Varies y) : 2 ≤ y.length := by
  obtain ⟨a, ha, b, hb, hne⟩ := h
  match y with
  | [] => cases ha
  | [c] =>
    simp only [List.mem_cons, List.not_mem_nil, or_false] at ha hb
    exact absurd (ha.trans hb.symm) hne
  | _ :: _ :: _ => simp

/-- With a response that varies, scores are finite and the higher the smaller the error. -/
theorem r2Score_varies [IsStrictOrderedRing K] {y : List K} (h : Varies y) (p : List K) :
    r2Score y p = .fin (1 - sqError y p / spread y) := by
  have := two_le_of_varies h
  unfold r2Score
  rw [if_neg (by omega), residual_eq]
  split_ifs with h1 h2
  · rw [h1]; simp
  · exact absurd h2 (spread_pos h).ne'
  · rfl

omit [Field K] in
theorem argmaxExtFrom_nan (bi i : Nat) (xs : List (Ext K)) : argmaxExtFrom bi .nan i xs = bi := by
  cases xs <;> simp [argmaxExtFrom]

omit [Field K] in
/-- On finite numbers `np.argmax` is the `argmax` of the model of `fit`. -/
theorem argmaxExtFrom_fin (bi : Nat) (b : K) (i : Nat) (xs : List K) :
    argmaxExtFrom bi (.fin b) i (xs.map .fin) = argmaxFrom bi b i xs := by
  induction xs generalizing bi b i with
  | nil => rfl
  | cons x xs ih =>
    simp only [List.map_cons, argmaxExtFrom, argmaxFrom, reduceCtorEq, if_false, false_or, ltExt,
      decide_eq_true_eq, ih]

omit [Field K] in
theorem argmaxExt_fin (xs : List K) : argmaxExt (xs.map .fin) = argmax xs := by
  cases xs with
  | nil => rfl
  | cons x xs => simp only [List.map_cons, argmaxExt, argmax, argmaxExtFrom_fin]

theorem score_ok {y p : List K} (h : p.length = y.length) : score y p = .ok (r2Score y p) := by
  unfold score
  rw [if_neg (by omega)]

theorem scores_ok {y : List K} : ∀ {ps : List (List K)}, (∀ p ∈ ps, p.length = y.length) →
    mapE (score y) ps = .ok (ps.map (r2Score y))
  | [], _ => rfl
  | p :: ps, h => by
    rw [mapE, score_ok (h p (List.mem_cons_self ..)),
      scores_ok fun q hq => h q (List.mem_cons_of_mem _ hq)]
    rfl

theorem choose_eq {y : List K} {ps : List (List K)} (h : ∀ p ∈ ps, p.length = y.length) :
    choose y ps = argmaxExt (ps.map (r2Score y)) := by
  unfold choose
  rw [scores_ok h]

end Verif.HeldOut
