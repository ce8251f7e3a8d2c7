import Verif.Lemmas.Proportion
/-!
C145: `stability_selection` as a proportion, "the proportion of bootstraps" that a feature must be selected in
(`/repo/src/pyuoi/linear_model/utils.py:11-19`), in double precision.
-/
namespace Verif.Props.Proportion
open Verif.Thresholds Verif.Intersection Verif.Intersection.Spec Verif.SplitSize Verif.Spec.SplitSize Verif.Proportion
  Verif.Spec.Proportion
variable {K : Type} [Zero K] [DecidableEq K]

/-- C145 (partial): for proportions of at least two bootstraps there is a support for each of them and each penalty; every
    feature that was selected in the proportion of the bootstraps is in it, and no feature that is more than one bootstrap
    short of it.  Missing: features that are short by one bootstrap or less, see `C145_negation`; a single pair of
    proportion and penalty and a single feature, see C03 and C04. -/
theorem C145_partial {rnd : ℚ → ℚ} (h : Nearest rnd) {A : Arr3 K} {ps : List ℚ} (h1 : ps.length * A.n1 ≠ 1) (h2 : A.n2 ≠ 1)
    (hp : ∀ p ∈ ps, 0 ≤ p ∧ p ≤ 1 ∧ 2 ≤ p * A.n0 ∧ A.n0 * p.den ≤ 2 ^ 50) :
    ∃ rows, supportsList rnd A ps = .ok (.d2 rows) ∧ rows.Nodup ∧ RowsFor A ps (UpToOne A) rows := by
  refine rows_for h1 h2 (fun p hm => ?_) fun p hm l _ row hr => ?_
  · obtain ⟨p0, p1, p2, pd⟩ := hp p hm
    obtain ⟨b1, b2, -⟩ := thr_bounds h p0 p1 pd
    have hn : (0 : ℚ) ≤ A.n0 := Nat.cast_nonneg _
    constructor
    · have : (0 : ℚ) < thr rnd p A.n0 := by linarith
      have : 0 < thr rnd p A.n0 := by exact_mod_cast this
      omega
    · have : (thr rnd p A.n0 : ℚ) ≤ ((A.n0 : ℤ) : ℚ) := b1.trans (by push_cast; nlinarith)
      exact_mod_cast this
  · obtain ⟨p0, p1, p2, pd⟩ := hp p hm
    obtain ⟨b1, -, -, -, b5⟩ := thr_bounds h p0 p1 pd
    refine ⟨hr.1, fun j hj => ⟨fun hc => ?_, fun hc => ?_⟩⟩
    · rw [hr.2 j hj]
      have : (thr rnd p A.n0 : ℚ) ≤ (((selectedIn A l j).card : ℤ) : ℚ) := b1.trans (by push_cast; exact hc)
      exact_mod_cast this
    · rw [hr.2 j hj] at hc
      by_contra hcc
      push Not at hcc
      have := (b5 ((selectedIn A l j).card : ℤ) (.inr (by push_cast; exact hcc))).2
        (Int.le_floor.2 (by push_cast; exact hcc.le))
      omega

/-- C145: proportions of a whole number of bootstraps that are not rounded down when they are read give exactly the features
    that were selected in this proportion of the bootstraps. -/
theorem C145_exact {rnd : ℚ → ℚ} (h : Nearest rnd) {A : Arr3 K} {ps : List ℚ} (h1 : ps.length * A.n1 ≠ 1) (h2 : A.n2 ≠ 1)
    (hp : ∀ p ∈ ps, 0 < p ∧ p ≤ 1 ∧ A.n0 * p.den ≤ 2 ^ 50 ∧ p ≤ rnd p ∧ ∃ k : Nat, 1 ≤ k ∧ p * A.n0 = k) :
    ∃ rows, supportsList rnd A ps = .ok (.d2 rows) ∧ rows.Nodup ∧ RowsFor A ps (Exactly A) rows := by
  have key : ∀ p ∈ ps, ∃ k : Nat, 1 ≤ k ∧ p * A.n0 = k ∧ thr rnd p A.n0 = k := by
    intro p hm
    obtain ⟨p0, p1, pd, pu, k, hk, e⟩ := hp p hm
    refine ⟨k, hk, e, ?_⟩
    rw [(thr_bounds h p0.le p1 pd).2.2.2.1 pu, e]
    exact Int.floor_natCast k
  refine rows_for h1 h2 (fun p hm => ?_) fun p hm l _ row hr => ?_
  · obtain ⟨p0, p1, -⟩ := hp p hm
    obtain ⟨k, hk, e, ht⟩ := key p hm
    rw [ht]
    have hn : (0 : ℚ) ≤ A.n0 := Nat.cast_nonneg _
    have : (k : ℚ) ≤ A.n0 := by rw [← e]; nlinarith
    have : k ≤ A.n0 := by exact_mod_cast this
    omega
  · obtain ⟨k, hk, e, ht⟩ := key p hm
    refine ⟨hr.1, fun j hj => ?_⟩
    rw [hr.2 j hj, ht, e]
    exact_mod_cast Iff.rfl

/-- C145 (default): the proportion 1 gives exactly the features that were selected in every bootstrap. -/
theorem C145_all {rnd : ℚ → ℚ} (h : Nearest rnd) {A : Arr3 K} (h0 : 1 ≤ A.n0) (hn : A.n0 ≤ 2 ^ 50) (h1 : A.n1 ≠ 1) (h2 : A.n2 ≠ 1) :
    ∃ rows, supportsList rnd A [1] = .ok (.d2 rows) ∧ rows.Nodup ∧ RowsFor A [1] (Exactly A) rows := by
  refine C145_exact h (by simpa using h1) h2 fun p hm => ?_
  obtain rfl := List.mem_singleton.1 hm
  have r1 : rnd 1 = 1 := rnd_rep h (by exact_mod_cast rep_int (k := 1) (by norm_num))
  exact ⟨by norm_num, le_refl _, by simpa using hn, by rw [r1], A.n0, h0, by simp⟩

/-- C145: a single proportion acts as a list of one. -/
theorem C145_scalar (rnd : ℚ → ℚ) (A : Arr3 K) (p : ℚ) : supports rnd A p = supportsList rnd A [p] := by
  have e : convert (doubles rnd) (.float (.fin (rnd p))) A.n0 =
      convert (doubles rnd) (.list ([p].map fun p => .float (.fin (rnd p)))) A.n0 := by
    rw [convert_list]; rfl
  unfold supports supportsList stabilityToThreshold
  rw [e]

/-- 24 bootstraps (the default), two penalties, two features; the first feature is selected in `m` of the bootstraps, the second
    never. -/
def demo (n m : Nat) : Arr3 ℚ where
  n0 := n
  n1 := 2
  n2 := 2
  get b _ j := if j = 0 ∧ b < m then 1 else 0

example : ∃ rows, supportsList near53 (demo 24 12) [1 / 2, 3 / 4] = .ok (.d2 rows) ∧
    RowsFor (demo 24 12) [1 / 2, 3 / 4] (UpToOne (demo 24 12)) rows := by
  obtain ⟨rows, h, -, hr⟩ := C145_partial near53_nearest (A := demo 24 12) (ps := [1 / 2, 3 / 4]) (by decide) (by decide) (by
    decide +kernel)
  exact ⟨rows, h, hr⟩

example : ∃ rows, supportsList near53 (demo 24 12) [1 / 2, 3 / 4] = .ok (.d2 rows) ∧
    RowsFor (demo 24 12) [1 / 2, 3 / 4] (Exactly (demo 24 12)) rows := by
  have r1 : near53 (1 / 2) = 1 / 2 := rnd_rep near53_nearest ⟨1, -1, by norm_num, by norm_num⟩
  have r2 : near53 (3 / 4) = 3 / 4 := rnd_rep near53_nearest ⟨3, -2, by norm_num, by norm_num⟩
  obtain ⟨rows, h, -, hr⟩ := C145_exact near53_nearest (A := demo 24 12) (ps := [1 / 2, 3 / 4]) (by decide) (by decide) (by
    intro p hm
    simp only [List.mem_cons, List.not_mem_nil, or_false] at hm
    rcases hm with rfl | rfl
    · exact ⟨by norm_num, by norm_num, by decide +kernel, by rw [r1], 12, by norm_num, by norm_num [demo]⟩
    · exact ⟨by norm_num, by norm_num, by decide +kernel, by rw [r2], 18, by norm_num, by norm_num [demo]⟩)
  exact ⟨rows, h, hr⟩

example : ∃ rows, supports near53 (demo 24 24) 1 = .ok (.d2 rows) ∧ RowsFor (demo 24 24) [1] (Exactly (demo 24 24)) rows := by
  obtain ⟨rows, h, -, hr⟩ := C145_all near53_nearest (A := demo 24 24) (by decide) (by decide) (by decide) (by decide)
  exact ⟨rows, (C145_scalar ..).trans h, hr⟩

/-- C145 is false.  Nine tenths of the default 24 bootstraps are 21.6, but a feature selected in 21 of them is in every support;
    57 per cent of 100 bootstraps are 57, but, for every rounding to nearest, a feature selected in 56 is. -/
theorem C145_negation :
    (∀ rnd : ℚ → ℚ, Nearest rnd →
      supports rnd (demo 24 21) (9 / 10) = .ok (.d2 [[true, false]]) ∧
      supports rnd (demo 100 56) (57 / 100) = .ok (.d2 [[true, false]])) ∧
    (∀ l, (selectedIn (demo 24 21) l 0).card = 21 ∧ (selectedIn (demo 100 56) l 0).card = 56) ∧
    (21 : ℚ) < 9 / 10 * 24 ∧ (56 : ℚ) < 57 / 100 * 100 := by
  refine ⟨fun rnd h => ⟨?_, ?_⟩, fun l => ⟨?_, ?_⟩, by norm_num, by norm_num⟩
  · have t := thr_nine_tenths h
    rw [C145_scalar, supportsList_ok (by
      intro p hm
      obtain rfl := List.mem_singleton.1 hm
      rw [show (demo 24 21).n0 = 24 from rfl, t]; decide)]
    rw [show (demo 24 21).n0 = 24 from rfl, List.map_singleton, t]
    decide +kernel
  · have t := thr_57 h
    rw [C145_scalar, supportsList_ok (by
      intro p hm
      obtain rfl := List.mem_singleton.1 hm
      rw [show (demo 100 56).n0 = 100 from rfl, t]; decide)]
    rw [show (demo 100 56).n0 = 100 from rfl, List.map_singleton, t]
    decide +kernel
  · have : selectedIn (demo 24 21) l 0 = selectedIn (demo 24 21) 0 0 := rfl
    rw [this]; decide +kernel
  · have : selectedIn (demo 100 56) l 0 = selectedIn (demo 100 56) 0 0 := rfl
    rw [this]; decide +kernel

end Verif.Props.Proportion
