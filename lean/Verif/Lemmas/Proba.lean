import Verif.Model.Proba
import Verif.Spec.Proba
import Verif.Lemmas.Labels
import Verif.Lemmas.Reduce
import Mathlib.Algebra.Order.BigOperators.Group.List
/-! Lemmas on the probabilities of the classifiers. -/
namespace Verif.Proba
open Verif.Py Verif.Labels Verif.Spec.Proba
open Verif.Logistic (expit)

theorem expit_bounds (s : ℝ) : 0 < expit s ∧ expit s < 1 := by
  have := Real.exp_pos (-s)
  unfold expit
  exact ⟨by positivity, by rw [div_lt_one (by positivity)]; linarith⟩

theorem expit_half (s : ℝ) : 1 - expit s < expit s ↔ 0 < s := by
  have := Real.exp_pos (-s)
  have h : 1 / 2 < expit s ↔ 0 < s := by
    unfold expit
    rw [div_lt_div_iff₀ (by norm_num) (by positivity), one_mul, one_mul]
    constructor
    · intro h
      have : Real.exp (-s) < 1 := by linarith
      rw [Real.exp_lt_one_iff] at this
      linarith
    · intro h
      have : Real.exp (-s) < 1 := Real.exp_lt_one_iff.2 (by linarith)
      linarith
  rw [← h]
  constructor <;> intro <;> linarith

theorem sum_pos_of {l : List ℝ} (h : ∀ v ∈ l, 0 < v) (h0 : l ≠ []) : 0 < l.sum := List.sum_pos l h h0

/-- Entries of a list of at least two positive numbers are less than the sum. -/
theorem lt_sum {l : List ℝ} (h : ∀ v ∈ l, 0 < v) (h2 : 2 ≤ l.length) {v : ℝ} (hv : v ∈ l) : v < l.sum := by
  obtain ⟨s, t, rfl⟩ := List.append_of_mem hv
  have hs : 0 ≤ s.sum := List.sum_nonneg fun x hx => (h x (by simp [hx])).le
  have ht : 0 ≤ t.sum := List.sum_nonneg fun x hx => (h x (by simp [hx])).le
  rw [List.sum_append, List.sum_cons]
  rcases List.eq_nil_or_concat s with rfl | ⟨s', x, rfl⟩
  · have : t ≠ [] := by rintro rfl; simp at h2
    have := sum_pos_of (fun x hx => h x (by simp [hx])) this
    simp; linarith
  · have := sum_pos_of (l := s' ++ [x]) (fun x' hx => h x' (by simp at hx ⊢; tauto)) (by simp)
    simp only [List.concat_eq_append] at *
    linarith

theorem map_div_sum (l : List ℝ) (c : ℝ) : (l.map fun v => v / c).sum = l.sum / c := by
  induction l with
  | nil => simp
  | cons a l ih => simp [ih, add_div]

theorem normalise_distribution {l : List ℝ} (h : ∀ v ∈ l, 0 < v) (h2 : 2 ≤ l.length) :
    Distribution l.length (l.map fun v => v / l.sum) := by
  have hs : 0 < l.sum := sum_pos_of h (by rintro rfl; simp at h2)
  refine ⟨by simp, fun q hq => ?_, ?_⟩
  · obtain ⟨v, hv, rfl⟩ := List.mem_map.1 hq
    exact ⟨div_pos (h v hv) hs, (div_lt_one hs).2 (lt_sum h h2 hv)⟩
  · rw [map_div_sum, div_self hs.ne']

/-- The shift of `softmaxRow` cancels. -/
theorem softmaxRow_eq (d : List ℝ) : ∃ c : ℝ, 0 < c ∧ softmaxRow d = d.map fun v => Real.exp v / c := by
  by_cases h : d = []
  · subst h; exact ⟨1, one_pos, rfl⟩
  unfold softmaxRow
  generalize rowMax d = m
  have hs : 0 < (d.map fun v => Real.exp (v - m)).sum :=
    sum_pos_of (by intro v hv; obtain ⟨w, -, rfl⟩ := List.mem_map.1 hv; exact Real.exp_pos _) (by simpa using h)
  refine ⟨(d.map fun v => Real.exp (v - m)).sum * Real.exp m, mul_pos hs (Real.exp_pos m), ?_⟩
  simp only [List.map_map]
  refine List.map_congr_left fun v _ => ?_
  simp only [Function.comp]
  rw [Real.exp_sub]
  field_simp

theorem softmaxRow_distribution {d : List ℝ} (h : 2 ≤ d.length) : Distribution d.length (softmaxRow d) := by
  unfold softmaxRow
  generalize rowMax d = m
  have := normalise_distribution (l := d.map fun v => Real.exp (v - m))
    (by intro v hv; obtain ⟨w, -, rfl⟩ := List.mem_map.1 hv; exact Real.exp_pos _) (by simpa using h)
  simpa using this

theorem firstMost_argmax {d : List ℝ} {f : ℝ → ℝ} (hf : StrictMono f) {i : Nat} (h : argmax d = .ok i) :
    FirstMost (d.map f) i := by
  obtain ⟨x, hx, hle⟩ := argmax_spec h
  refine ⟨f x, by simp [hx], fun q hq => ?_, fun j hj q hq => ?_⟩
  · obtain ⟨v, hv, rfl⟩ := List.mem_map.1 hq
    obtain ⟨j, hj⟩ := List.mem_iff_getElem?.1 hv
    exact hf.monotone (hle j v hj).1
  · rw [List.getElem?_map] at hq
    obtain ⟨v, hv, rfl⟩ := Option.map_eq_some_iff.1 hq
    exact hf ((hle j v hv).2 hj)

/-- All that is needed about one row: `d` has one entry for two classes, or one entry per class. -/
theorem probaRow_facts {multinomial : Bool} {k : Nat} {d : List ℝ} (h2 : 2 ≤ k)
    (hd : (d.length = 1 ∧ k = 2 ∧ multinomial = false) ∨ (d.length = k ∧ (multinomial = true ∨ 2 < k))) :
    Distribution k (probaRow multinomial k d) ∧ ∃ i, predictIdx d = .ok i ∧ FirstMost (probaRow multinomial k d) i := by
  rcases hd with ⟨hl, rfl, rfl⟩ | ⟨hl, hm⟩
  · obtain ⟨s, rfl⟩ := List.length_eq_one_iff.1 hl
    have e : probaRow false 2 [s] = [1 - expit s, expit s] := by simp [probaRow]
    obtain ⟨b0, b1⟩ := expit_bounds s
    rw [e]
    refine ⟨⟨rfl, fun q hq => ?_, by simp⟩, _, rfl, ?_⟩
    · simp only [List.mem_cons, List.not_mem_nil, or_false] at hq
      rcases hq with rfl | rfl
      · constructor <;> linarith
      · exact ⟨b0, b1⟩
    · split_ifs with hs
      · have := (expit_half s).2 hs
        refine ⟨expit s, rfl, fun q hq => ?_, fun j hj q hq => ?_⟩
        · simp only [List.mem_cons, List.not_mem_nil, or_false] at hq
          rcases hq with rfl | rfl
          · exact this.le
          · exact le_rfl
        · obtain rfl : j = 0 := by omega
          cases hq
          exact this
      · have := not_lt.1 (mt (expit_half s).1 hs)
        refine ⟨1 - expit s, rfl, fun q hq => ?_, fun j hj q hq => by omega⟩
        simp only [List.mem_cons, List.not_mem_nil, or_false] at hq
        rcases hq with rfl | rfl
        · exact le_rfl
        · exact this
  · have e : probaRow multinomial k d = softmaxRow d := by
      unfold probaRow
      rw [if_neg (by rintro ⟨rfl, hk⟩; rcases hm with hm | hm; exact absurd hm (by decide); omega)]
      split
      · simp at hl; omega
      · rfl
    rw [e]
    subst hl
    refine ⟨softmaxRow_distribution h2, ?_⟩
    obtain ⟨c, hc, e2⟩ := softmaxRow_eq d
    rw [e2]
    match d with
    | [] => simp at h2
    | [s] => simp at h2
    | a :: b :: l =>
      refine ⟨_, rfl, firstMost_argmax (fun x y h => ?_) rfl⟩
      exact div_lt_div_of_pos_right (Real.exp_lt_exp.2 h) hc

/-- The logarithm of the ratio of two entries. -/
theorem probaRow_odds {multinomial : Bool} {k : Nat} {d : List ℝ} (h2 : 2 ≤ k)
    (hl : d.length = k) (hm : multinomial = true ∨ 2 < k) {i j : Nat} {a b p q : ℝ} (ha : d[i]? = some a) (hb : d[j]? = some b)
    (hp : (probaRow multinomial k d)[i]? = some p) (hq : (probaRow multinomial k d)[j]? = some q) :
    Real.log (p / q) = a - b := by
  have e : probaRow multinomial k d = softmaxRow d := by
    unfold probaRow
    rw [if_neg (by rintro ⟨rfl, hk⟩; rcases hm with hm | hm; exact absurd hm (by decide); omega)]
    split
    · simp at hl; omega
    · rfl
  obtain ⟨c, hc, e2⟩ := softmaxRow_eq d
  rw [e, e2, List.getElem?_map] at hp hq
  rw [ha] at hp
  rw [hb] at hq
  cases hp
  cases hq
  rw [div_div_div_cancel_right₀ hc.ne', ← Real.exp_sub, Real.log_exp]

theorem expit_odds (s : ℝ) : Real.log (expit s / (1 - expit s)) = s := by
  have h := Real.exp_pos (-s)
  have : expit s / (1 - expit s) = Real.exp s := by
    unfold expit
    rw [Real.exp_neg] at *
    have := Real.exp_pos s
    field_simp
    ring
  rw [this, Real.log_exp]

theorem outputDim_cases {L : Type} [LinearOrder L] {multinomial : Bool} {y : List L} (h2 : 2 ≤ (uniq y).length) :
    (outputDim multinomial y = 1 ∧ (uniq y).length = 2 ∧ multinomial = false) ∨
    (outputDim multinomial y = (uniq y).length ∧ (multinomial = true ∨ 2 < (uniq y).length)) := by
  unfold outputDim
  split_ifs with h h'
  · exact .inr ⟨rfl, .inr h⟩
  · exact .inr ⟨by omega, .inl h'⟩
  · exact .inl ⟨rfl, by omega, by simpa using h'⟩

theorem maskedRows_cases {multinomial : Bool} {k r : Nat} (h : maskedRows multinomial k = .ok r) :
    2 ≤ k ∧ ((r = 1 ∧ k = 2 ∧ multinomial = false) ∨ (r = k ∧ (multinomial = true ∨ 2 < k))) := by
  unfold maskedRows at h
  split_ifs at h with h1 h2
  · cases h; exact ⟨by omega, .inl ⟨rfl, h2.1, h2.2⟩⟩
  · cases h
    refine ⟨by omega, .inr ⟨rfl, ?_⟩⟩
    cases multinomial
    · simp only [and_true] at h2; exact .inr (by omega)
    · exact .inl rfl

end Verif.Proba
