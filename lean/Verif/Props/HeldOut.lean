import Mathlib.Data.Rat.Floor
import Mathlib.Tactic.NormNum
import Verif.Lemmas.HeldOut
import Verif.Lemmas.Reduce
import Verif.Props.Intersection
/-!
The choice of a candidate by its error on held-out rows (C125).
-/
namespace Verif.Props
open Verif.Py Verif.HeldOut Verif.Spec.HeldOut Verif.Intersection Verif.Intersection.Spec

variable {K : Type} [LinearOrder K] [Field K]

/-- The train/test split has the rows there are, both parts are non-empty, and the test part is the fraction
    asked for, rounded up; when the fraction amounts to at most one row, there is one test row. -/
theorem C125_sizes {t : ℚ} {n a b : Nat} (h : splitSizes t n = .ok (a, b)) :
    a + b = n ∧ 0 < a ∧ 0 < b ∧ t * n ≤ b ∧ (b : ℚ) < t * n + 1 ∧ (t * n ≤ 1 → b = 1) := by
  unfold splitSizes at h
  split_ifs at h with h1 h2
  push Not at h1 h2
  simp only [Except.ok.injEq, Prod.mk.injEq] at h
  obtain ⟨rfl, rfl⟩ := h
  have hn : (0 : ℚ) < n := by
    have : 0 < n := lt_of_le_of_lt (Nat.zero_le _) h2
    exact_mod_cast this
  have hp : 0 < t * n := mul_pos h1.1 hn
  have hb : 0 < ⌈t * n⌉₊ := Nat.ceil_pos.mpr hp
  refine ⟨by omega, by omega, hb, Nat.le_ceil _, Nat.ceil_lt_add_one hp.le, fun h => ?_⟩
  have : ⌈t * n⌉₊ ≤ 1 := Nat.ceil_le.mpr (by simpa using h)
  omega

/-- **C125**, when the response varies on the held-out rows: the candidate chosen in a bootstrap is the
    first of those with the smallest squared error there.  Missing: held-out rows with the same response
    (`C125_constant`), and a single held-out row (`C125_single`, `C125_negation`). -/
theorem C125_best_partial [IsStrictOrderedRing K] {y : List K} (hy : Varies y) {ps : List (List K)}
    (hp : ∀ p ∈ ps, p.length = y.length) (h0 : ps ≠ []) :
    ∃ i, choose y ps = .ok i ∧ IsFirstBest y ps i := by
  have hs := spread_pos hy
  have e : ps.map (r2Score y) = (ps.map fun p => 1 - sqError y p / spread y).map .fin := by
    rw [List.map_map]
    exact List.map_congr_left fun p _ => r2Score_varies hy p
  rw [choose_eq hp, e, argmaxExt_fin]
  obtain ⟨i, hi⟩ : ∃ i, argmax (ps.map fun p => 1 - sqError y p / spread y) = .ok i := by
    cases ps with
    | nil => exact absurd rfl h0
    | cons p ps => exact ⟨_, rfl⟩
  refine ⟨i, hi, ?_⟩
  obtain ⟨x, hx, hmax⟩ := argmax_spec hi
  rw [List.getElem?_map] at hx
  cases hpi : ps[i]? with
  | none => rw [hpi] at hx; cases hx
  | some p =>
    rw [hpi] at hx
    simp only [Option.map_some, Option.some.injEq] at hx
    subst hx
    have mono : ∀ a b : K, 1 - a / spread y ≤ 1 - b / spread y ↔ b ≤ a := fun a b => by
      rw [sub_le_sub_iff_left, div_le_div_iff_of_pos_right hs]
    refine ⟨p, hpi, fun q hq => ?_, fun j hj q hq => ?_⟩
    · obtain ⟨j, hj⟩ := List.mem_iff_getElem?.mp hq
      exact (mono _ _).mp (hmax j _ (by rw [List.getElem?_map, hj]; rfl)).1
    · have := (hmax j _ (by rw [List.getElem?_map, hq]; rfl)).2 hj
      by_contra hc
      exact absurd this (not_lt.mpr ((mono _ _).mpr (not_lt.mp hc)))

/-- Held-out rows that all have the same response: the first exact candidate is chosen, and if there is
    none the first candidate, however large its error. -/
theorem C125_constant [IsStrictOrderedRing K] {y : List K} (hy : ¬ Varies y) (h2 : 2 ≤ y.length)
    {ps : List (List K)} (hp : ∀ p ∈ ps, p.length = y.length) (h0 : ps ≠ []) :
    ((∀ p ∈ ps, p ≠ y) → choose y ps = .ok 0) ∧
    (∀ i, ps[i]? = some y → (∀ j < i, ps[j]? ≠ some y) → choose y ps = .ok i) := by
  classical
  have exact_iff : ∀ p : List K, p.length = y.length → (sqError y p = 0 ↔ p = y) := by
    intro p hl
    have key : ∀ (y p : List K), p.length = y.length → sqError y p = 0 → p = y := by
      intro y
      induction y with
      | nil => intro p hl _; exact List.eq_nil_of_length_eq_zero hl
      | cons a y ih =>
        intro p hl h
        cases p with
        | nil => simp at hl
        | cons b p =>
          have hn := sqError_nonneg y p
          have e : sqError (a :: y) (b :: p) = (a - b) * (a - b) + sqError y p := by simp [sqError]
          rw [e] at h
          have h1 := mul_self_nonneg (a - b)
          have h3 : (a - b) * (a - b) = 0 := by linarith
          have h4 : sqError y p = 0 := by linarith
          have h5 : a = b := sub_eq_zero.mp (mul_self_eq_zero.mp h3)
          rw [h5, ih p (by simpa using hl) h4]
    refine ⟨key y p hl, fun h => ?_⟩
    subst h
    have : ∀ l : List K, sqError l l = 0 := by
      intro l
      induction l with
      | nil => rfl
      | cons a l ih =>
        have e : sqError (a :: l) (a :: l) = (a - a) * (a - a) + sqError l l := by simp [sqError]
        rw [e, ih]; simp
    exact this p
  have e : ps.map (r2Score y) = (ps.map fun p => if p = y then (1 : K) else 0).map .fin := by
    rw [List.map_map]
    refine List.map_congr_left fun p hm => ?_
    unfold r2Score
    rw [if_neg (by omega), residual_eq, spread_const hy]
    by_cases hq : p = y
    · rw [if_pos ((exact_iff p (hp p hm)).mpr hq)]; simp [hq]
    · rw [if_neg (fun h => hq ((exact_iff p (hp p hm)).mp h))]; simp [hq]
  rw [choose_eq hp, e, argmaxExt_fin]
  obtain ⟨k, hk⟩ : ∃ k, argmax (ps.map fun p => if p = y then (1 : K) else 0) = .ok k := by
    cases ps with
    | nil => exact absurd rfl h0
    | cons p ps => exact ⟨_, rfl⟩
  obtain ⟨x, hx, hmax⟩ := argmax_spec hk
  rw [hk]
  rw [List.getElem?_map] at hx
  cases hpk : ps[k]? with
  | none => rw [hpk] at hx; cases hx
  | some p =>
    rw [hpk] at hx
    simp only [Option.map_some, Option.some.injEq] at hx
    refine ⟨fun hne => ?_, fun i hi hfirst => ?_⟩
    · congr 1
      by_contra hk0
      cases hp0 : ps with
      | nil => exact absurd hp0 h0
      | cons q qs =>
        have h1 := (hmax 0 (if q = y then 1 else 0) (by simp [hp0])).2 (Nat.pos_of_ne_zero hk0)
        rw [if_neg (hne q (by rw [hp0]; exact List.mem_cons_self ..)), ← hx,
          if_neg (hne p (List.mem_of_getElem? hpk))] at h1
        exact lt_irrefl _ h1
    · congr 1
      have h1 := (hmax i 1 (by rw [List.getElem?_map, hi]; simp)).1
      have hpy : p = y := by
        by_contra hq
        rw [if_neg hq] at hx
        rw [← hx] at h1
        exact absurd h1 (not_le.mpr zero_lt_one)
      subst hpy
      rcases lt_trichotomy k i with hlt | heq | hgt
      · exact absurd hpk (hfirst k hlt)
      · exact heq
      · have h3 := (hmax i 1 (by rw [List.getElem?_map, hi]; simp)).2 hgt
        rw [if_pos rfl] at hx
        rw [← hx] at h3
        exact absurd h3 (lt_irrefl _)

/-- With a single held-out row the score is NaN for every candidate, and the first candidate is chosen,
    whatever the predictions. -/
theorem C125_single {y : List K} (hy : y.length = 1) {ps : List (List K)}
    (hp : ∀ p ∈ ps, p.length = 1) (h0 : ps ≠ []) : choose y ps = .ok 0 := by
  rw [choose_eq fun p h => (hp p h).trans hy.symm]
  cases ps with
  | nil => exact absurd rfl h0
  | cons p ps =>
    have e : r2Score y p = .nan := by simp [r2Score, hy]
    simp only [List.map_cons, argmaxExt, e, argmaxExtFrom_nan]

/-- **C125** is false: of two candidates the second predicts the one held-out response exactly, and the
    first is chosen. -/
theorem C125_negation : choose [(5 : ℚ)] [[0], [5]] = .ok 0 ∧
    ¬ IsFirstBest [(5 : ℚ)] [[0], [5]] 0 := by
  refine ⟨by decide +kernel, ?_⟩
  rintro ⟨p, hp, h, -⟩
  simp only [List.getElem?_cons_zero, Option.some.injEq] at hp
  subst hp
  have := h [5] (by simp)
  norm_num [sqError] at this

/-- With the default `estimation_frac` and at most ten samples there is one held-out row in every
    bootstrap, so the first candidate is chosen in all of them; if no feature at all is stable for some
    regularization parameter, that is the candidate without features: `coef_` is zero whatever the data. -/
theorem C125_small (A : Arr3 K) (ts : List Int) (h1 : ts.length * A.n1 ≠ 1) (h2 : A.n2 ≠ 1)
    {t : Int} (ht : t ∈ ts) {l : Nat} (hl : l < A.n1)
    (hempty : IsStable A t l (List.replicate A.n2 false))
    {n a b : Nat} (hn : n ≤ 10) (hs : splitSizes (1 / 10) n = .ok (a, b))
    (boots : List (List K × List (List K)))
    (hb : ∀ q ∈ boots, q.1.length = b ∧ (∀ p ∈ q.2, p.length = b)) :
    ∃ rows, intersection A (some ts) = .ok (.d2 rows) ∧
      ((∀ q ∈ boots, q.2.length = rows.length) → ∃ idx, chosen boots = .ok idx ∧
        idx.length = boots.length ∧ ∀ i ∈ idx, rows[i]? = some (List.replicate A.n2 false)) := by
  obtain ⟨rows, hr, hmem, hnd, hsort⟩ := C03_intersection_partial A ts h1 h2
  refine ⟨rows, hr, fun hlen => ?_⟩
  have hb1 : b = 1 := (C125_sizes hs).2.2.2.2.2 (by
    have : (n : ℚ) ≤ 10 := by exact_mod_cast hn
    linarith)
  subst hb1
  have hin : List.replicate A.n2 false ∈ rows := (hmem _).mpr ⟨t, ht, l, hl, hempty⟩
  have h0 : rows[0]? = some (List.replicate A.n2 false) := by
    cases rows with
    | nil => cases hin
    | cons r rs =>
      rcases List.mem_cons.mp hin with h | h
      · rw [h]; rfl
      · exfalso
        obtain ⟨i, -, -, hi⟩ := (List.pairwise_cons.mp hsort).1 _ h
        rw [List.getElem?_replicate] at hi
        split_ifs at hi
        cases hi
  have hne : ∀ q ∈ boots, choose q.1 q.2 = .ok 0 := by
    intro q hq
    refine C125_single (hb q hq).1 (hb q hq).2 ?_
    intro he
    have := hlen q hq
    rw [he] at this
    cases rows with
    | nil => cases hin
    | cons r rs => simp at this
  have hch : ∀ l : List (List K × List (List K)), (∀ q ∈ l, choose q.1 q.2 = .ok 0) →
      chosen l = .ok (l.map fun _ => 0) := by
    intro l
    induction l with
    | nil => intro _; rfl
    | cons q l ih =>
      intro h
      have h1 := h q (List.mem_cons_self ..)
      have h2 := ih fun q hq => h q (List.mem_cons_of_mem _ hq)
      unfold chosen at h2 ⊢
      rw [mapE, h1, h2]
      rfl
  refine ⟨_, hch boots hne, by simp, fun i hi => ?_⟩
  obtain ⟨q, -, rfl⟩ := List.mem_map.mp hi
  exact h0

/-! ### Examples -/

example : splitSizes (1 / 10) 10 = .ok (9, 1) ∧ splitSizes (1 / 10) 11 = .ok (9, 2) ∧
    splitSizes (1 / 10) 1 = .error .valueError := by
  have h : ⌈(11 / 10 : ℚ)⌉₊ = 2 := by rw [Nat.ceil_eq_iff (by decide)]; norm_num
  refine ⟨?_, ?_, ?_⟩ <;> · norm_num [splitSizes, h]

/-- Three held-out rows; the second and the third candidate are equally good. -/
example : choose [(1 : ℚ), 2, 4] [[0, 0, 0], [1, 2, 3], [1, 2, 5]] = .ok 1 ∧
    IsFirstBest [(1 : ℚ), 2, 4] [[0, 0, 0], [1, 2, 3], [1, 2, 5]] 1 := by
  have h : choose [(1 : ℚ), 2, 4] [[0, 0, 0], [1, 2, 3], [1, 2, 5]] = .ok 1 := by decide +kernel
  obtain ⟨i, hi, hb⟩ := C125_best_partial (y := [(1 : ℚ), 2, 4])
    (ps := [[0, 0, 0], [1, 2, 3], [1, 2, 5]]) ⟨1, by simp, 2, by simp, by norm_num⟩ (by simp) (by simp)
  rw [h] at hi
  cases hi
  exact ⟨h, hb⟩

/-- Two held-out rows with response 3: a candidate that is off by one in one row is not preferred to one
    that is off by a hundred. -/
example : choose [(3 : ℚ), 3] [[103, 103], [3, 4]] = .ok 0 ∧
    choose [(3 : ℚ), 3] [[103, 103], [3, 4], [3, 3]] = .ok 2 := by
  have hc : ¬ Varies [(3 : ℚ), 3] := by
    rintro ⟨a, ha, b, hb, hne⟩
    simp only [List.mem_cons, List.not_mem_nil, or_false, or_self] at ha hb
    exact hne (ha.trans hb.symm)
  refine ⟨(C125_constant hc (by simp) (by simp) (by simp)).1 (by simp), ?_⟩
  refine (C125_constant hc (by simp) (by simp) (by simp)).2 2 rfl fun j hj => ?_
  have : j = 0 ∨ j = 1 := by omega
  rcases this with rfl | rfl <;> norm_num

example : choose [(5 : ℚ)] [[0], [5], [7]] = .ok 0 := C125_single rfl (by simp) (by simp)

/-- The selection fits of the example of C03: nothing is stable for the larger parameter, and with ten
    samples the model without features is chosen in every bootstrap, although the other one is exact. -/
def exSmall : Arr3 ℚ where
  n0 := 2
  n1 := 2
  n2 := 2
  get _ l j := if l = 0 then 0 else if j = 0 then 1 else 0

example : ∃ rows, intersection exSmall (some [2]) = .ok (.d2 rows) ∧
    rows = [[false, false], [true, false]] ∧
    chosen [([(5 : ℚ)], [[0], [5]]), ([(7 : ℚ)], [[0], [7]])] = .ok [0, 0] ∧
    ∃ idx, chosen [([(5 : ℚ)], [[0], [5]]), ([(7 : ℚ)], [[0], [7]])] = .ok idx ∧
      ∀ i ∈ idx, rows[i]? = some [false, false] := by
  have hst : IsStable exSmall 2 0 (List.replicate 2 false) := by
    rw [isStable_iff]; decide
  obtain ⟨rows, h1, h2⟩ := C125_small exSmall [2] (by decide) (by decide) (t := 2) (by simp) (l := 0)
    (by decide) hst (n := 10) (a := 9) (b := 1) (by decide) (by norm_num [splitSizes])
    [([(5 : ℚ)], [[0], [5]]), ([(7 : ℚ)], [[0], [7]])] (by simp)
  have h3 : intersection exSmall (some [2]) = .ok (.d2 [[false, false], [true, false]]) := by decide
  rw [h3] at h1
  cases h1
  obtain ⟨idx, h4, -, h5⟩ := h2 (by simp)
  exact ⟨_, h3, rfl, by decide +kernel, idx, h4, h5⟩

end Verif.Props
