import Verif.Model.Synthetic
import Verif.Spec.Synthetic
import Verif.Lemmas.Datasets
import Mathlib.Tactic.Ring
import Mathlib.Tactic.FieldSimp
import Mathlib.Tactic.Linarith
import Mathlib.Algebra.Order.BigOperators.Group.List
/-!
Lemmas about variances and standardised samples (C127).
-/
namespace Verif.Datasets
open Verif.Py Verif.Spec.Synthetic

theorem sum_sq_sub (l : List ℝ) (m : ℝ) :
    (l.map fun e => (e - m) ^ 2).sum = (l.map (· ^ 2)).sum - 2 * m * l.sum + l.length * m ^ 2 := by
  induction l with
  | nil => simp
  | cons a l ih => simp only [List.map_cons, List.sum_cons, ih, List.length_cons]; push_cast; ring

theorem npVar_eq {l : List ℝ} (h : l ≠ []) : npVar l = variance l := by
  have hl : (l.length : ℝ) ≠ 0 := Nat.cast_ne_zero.2 (fun h0 => h (List.length_eq_zero_iff.1 h0))
  unfold npVar variance
  rw [sum_sq_sub]
  field_simp
  ring

theorem npVar_nonneg (l : List ℝ) : 0 ≤ npVar l := by
  unfold npVar
  refine div_nonneg (List.sum_nonneg fun v hv => ?_) (Nat.cast_nonneg _)
  obtain ⟨e, _, rfl⟩ := List.mem_map.1 hv
  exact sq_nonneg _

theorem sum_map_mul (s : ℝ) (l : List ℝ) : (l.map (s * ·)).sum = s * l.sum := by
  induction l with
  | nil => simp
  | cons a l ih => simp only [List.map_cons, List.sum_cons, ih]; ring

theorem variance_scale (s : ℝ) (l : List ℝ) : variance (l.map (s * ·)) = s ^ 2 * variance l := by
  have h : ((l.map (s * ·)).map (· ^ 2)).sum = s ^ 2 * (l.map (· ^ 2)).sum := by
    rw [← sum_map_mul, List.map_map, List.map_map]
    congr 1
    refine List.map_congr_left fun e _ => ?_
    simp only [Function.comp]; ring
  unfold variance
  rw [h, sum_map_mul, List.length_map]
  ring

theorem npVar_const {l : List ℝ} {c : ℝ} (h : ∀ e ∈ l, e = c) : npVar l = 0 := by
  have hr := List.eq_replicate_of_mem h
  have hz : ∀ v ∈ l.map (fun e => (e - l.sum / l.length) ^ 2), v = 0 := by
    intro v hv
    obtain ⟨e, he, rfl⟩ := List.mem_map.1 hv
    have hl : (l.length : ℝ) ≠ 0 :=
      Nat.cast_ne_zero.2 (fun h0 => by rw [List.length_eq_zero_iff.1 h0] at he; cases he)
    have hs : l.sum = l.length * c := by
      conv_lhs => rw [hr]
      simp
    rw [hs, h e he]
    field_simp
    ring
  unfold npVar
  rw [List.eq_replicate_of_mem hz]
  simp

theorem noiseScale_pos {var snr : ℝ} (hs : 0 < snr) (hv : 0 ≤ var) :
    noiseScale var snr = .fin (Real.sqrt (var / snr)) := by
  unfold noiseScale
  rw [if_neg hs.ne', if_neg (not_lt.2 (div_nonneg hv hs.le))]

theorem dot_zero {b : List ℝ} (hb : ∀ v ∈ b, v = 0) (x : List ℝ) : dot x b = 0 := by
  unfold dot
  induction x generalizing b with
  | nil => simp
  | cons a x ih =>
    cases b with
    | nil => simp
    | cons c b =>
      simp only [List.zipWith_cons_cons, List.sum_cons, hb c List.mem_cons_self,
        ih fun v hv => hb v (List.mem_cons_of_mem _ hv)]
      ring

theorem dot_shift (t : ℝ) : ∀ {x w : List ℝ}, x.length = w.length →
    dot x (w.map (· + t)) = dot x w + t * x.sum
  | [], [], _ => by simp [dot]
  | a :: x, b :: w, h => by
    have ih := dot_shift t (x := x) (w := w) (by simpa using h)
    unfold dot at ih ⊢
    simp only [List.map_cons, List.zipWith_cons_cons, List.sum_cons, ih]
    ring

theorem sum_map_sub (x : List ℝ) (m : ℝ) : (x.map fun v => v - m).sum = x.sum - x.length * m := by
  induction x with
  | nil => simp
  | cons a l ih => simp only [List.map_cons, List.sum_cons, ih, List.length_cons]; push_cast; ring

end Verif.Datasets
