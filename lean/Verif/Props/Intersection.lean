import Mathlib.Algebra.Order.Ring.Rat
import Verif.Lemmas.Intersection
/-!
C03-C06: stable supports.
-/
namespace Verif.Intersection
open Verif.Py Spec

variable {K : Type} [Zero K] [DecidableEq K]

/-- **C03** (partial).  When there is more than one (threshold, regularization parameter) pair
    and more than one coefficient (the squeeze of the code is then the identity), `intersection`
    returns a matrix whose rows are exactly the stable supports, without repetition and in
    ascending lexicographic order.  Missing: exactly one pair, or exactly one coefficient, where
    the claim is false (`C03_negation`, `C04_negation`). -/
theorem C03_intersection_partial (A : Arr3 K) (ts : List Int)
    (h1 : ts.length * A.n1 ≠ 1) (h2 : A.n2 ≠ 1) :
    ∃ rows, intersection A (some ts) = .ok (.d2 rows) ∧
      (∀ row, row ∈ rows ↔ ∃ t ∈ ts, ∃ l < A.n1, IsStable A t l row) ∧
      rows.Nodup ∧ rows.Pairwise LexLt := by
  refine ⟨_, intersection_d2 h1 h2, ?_, nodup_uniqueRows _, lexLt_of_rows⟩
  intro row
  rw [mem_uniqueRows, mem_allRows]
  constructor
  · rintro ⟨t, ht, l, hl, rfl⟩; exact ⟨t, ht, l, hl, isStable_supportRow A t l⟩
  · rintro ⟨t, ht, l, hl, h⟩; exact ⟨t, ht, l, hl, isStable_iff.1 h⟩

/-- Two bootstraps, two regularization parameters, three features. -/
def exA : Arr3 ℚ where
  n0 := 2
  n1 := 2
  n2 := 3
  get := fun b l j => if l = 0 then (if j = b then 1 else if j = 2 then 5 else 0) else 1

-- C03, concrete case: hypotheses hold and the supports are the expected ones
example : (([2] : List Int).length * exA.n1 ≠ 1) ∧ exA.n2 ≠ 1 := by decide
example : intersection exA (some [2]) =
    .ok (.d2 [[false, false, true], [true, true, true]]) := by decide

/-- One regularization parameter, two features, only feature `k` is selected. -/
def exOne (k : Nat) : Arr3 ℚ where
  n0 := 1
  n1 := 1
  n2 := 2
  get := fun _ _ j => if j = k then 1 else 0

/-- **C03** is false with a single threshold and a single regularization parameter: two
    coefficient arrays with different stable supports give the same answer, and the answer is
    not the list of the stable supports. -/
theorem C03_negation :
    ∃ A B : Arr3 ℚ, ∃ r s : List Bool,
      IsStable A 1 0 r ∧ IsStable B 1 0 s ∧ r ≠ s ∧
      intersection A (some [1]) = intersection B (some [1]) ∧
      intersection A (some [1]) ≠ .ok (.d2 [r]) := by
  refine ⟨exOne 0, exOne 1, [true, false], [false, true], ?_, ?_, by decide, by decide, by decide⟩
  · rw [isStable_iff]; decide
  · rw [isStable_iff]; decide

/-- What a single pair gives instead, when there is more than one feature: the distinct values of the
    one stable support, `False` before `True`, so only whether some and whether all features are
    stable can be read off. -/
theorem C03_single_pair (A : Arr3 K) (t : Int) (h : A.n1 = 1) (h2 : A.n2 ≠ 1) :
    ∃ vals, intersection A (some [t]) = .ok (.d1 vals) ∧ vals.Pairwise (· < ·) ∧
      ∀ row, IsStable A t 0 row → ∀ b, b ∈ vals ↔ b ∈ row := by
  refine ⟨uniqueBools (supportRow A t 0), ?_, ?_, fun row hrow b => ?_⟩
  · unfold intersection
    simp only [allRows, List.flatMap_cons, List.flatMap_nil, h, List.append_nil, List.range_one,
      List.map_cons, List.map_nil, squeeze2, if_neg h2, unique0]
  · unfold uniqueBools
    split_ifs <;> decide
  · rw [isStable_iff.1 hrow]
    unfold uniqueBools
    cases b <;> simp

/-- **C04** is false: with one threshold and one regularization parameter the result is never a
    matrix (an error for one feature, a 1-d array otherwise). -/
theorem C04_negation (A : Arr3 K) (t : Int) (h : A.n1 = 1) :
    ∀ rows, intersection A (some [t]) ≠ .ok (.d2 rows) := by
  intro rows
  unfold intersection
  simp only [allRows, List.flatMap_cons, List.flatMap_nil, h, List.append_nil]
  simp only [List.range_one, List.map_cons, List.map_nil, squeeze2]
  split <;> simp [unique0]

/-- **C04** is also false for a single feature: the result is never a matrix. -/
theorem C04_negation_feature (A : Arr3 K) (ts : List Int) (h : A.n2 = 1) :
    ∀ rows, intersection A (some ts) ≠ .ok (.d2 rows) := by
  intro rows
  unfold intersection
  simp only [h]
  unfold squeeze2
  split <;> simp [unique0]

/-- **C04** (partial).  Outside those two shapes the result is a matrix with one column per
    coefficient.  Missing: the shapes of `C04_negation` and `C04_negation_feature`. -/
theorem C04_shape_partial (A : Arr3 K) (ts : List Int)
    (h1 : ts.length * A.n1 ≠ 1) (h2 : A.n2 ≠ 1) :
    ∃ rows, intersection A (some ts) = .ok (.d2 rows) ∧ ∀ row ∈ rows, row.length = A.n2 := by
  obtain ⟨rows, h, hm, _⟩ := C03_intersection_partial A ts h1 h2
  refine ⟨rows, h, fun row hr => ?_⟩
  obtain ⟨t, _, l, _, hs⟩ := (hm row).1 hr
  exact hs.1

example : (exOne 0).n1 = 1 := rfl
example : intersection (exOne 0) (some [1]) = .ok (.d1 [false, true]) := by decide

/-- **C05** (monotonicity).  For every regularization parameter the mask of a larger threshold is
    contained in the mask of a smaller one, and both masks are what `intersection` works with;
    consequently every support returned for the larger threshold lies inside a support returned
    for the smaller threshold. -/
theorem C05_monotone (A : Arr3 K) (t t' : Int) (htt : t ≤ t') (l : Nat) (r r' : List Bool)
    (hr : IsStable A t l r) (hr' : IsStable A t' l r') : Contained r' r := by
  intro j hj
  have hlt : j < A.n2 := by
    have := (List.getElem?_eq_some_iff.1 hj).1
    rw [hr'.1] at this; exact this
  exact (hr.2 j hlt).2 (le_trans htt ((hr'.2 j hlt).1 hj))

/-- **C05** (monotonicity of the returned supports). -/
theorem C05_monotone_output (A : Arr3 K) (t t' : Int) (htt : t ≤ t')
    (h1 : A.n1 ≠ 1) (h2 : A.n2 ≠ 1) :
    ∃ rows rows', intersection A (some [t]) = .ok (.d2 rows) ∧
      intersection A (some [t']) = .ok (.d2 rows') ∧
      (∀ r' ∈ rows', ∃ r ∈ rows, Contained r' r) ∧
      (∀ r ∈ rows, ∃ r' ∈ rows', Contained r' r) := by
  obtain ⟨rows, e, m, _⟩ := C03_intersection_partial A [t] (by simpa using h1) h2
  obtain ⟨rows', e', m', _⟩ := C03_intersection_partial A [t'] (by simpa using h1) h2
  refine ⟨rows, rows', e, e', ?_, ?_⟩
  · intro r' hr'
    obtain ⟨u, hu, l, hl, hs⟩ := (m' r').1 hr'
    obtain rfl := List.mem_singleton.1 hu
    exact ⟨supportRow A t l, (m _).2 ⟨t, List.mem_singleton.2 rfl, l, hl, isStable_supportRow A t l⟩,
      C05_monotone A t u htt l _ _ (isStable_supportRow A t l) hs⟩
  · intro r hr
    obtain ⟨u, hu, l, hl, hs⟩ := (m r).1 hr
    obtain rfl := List.mem_singleton.1 hu
    exact ⟨supportRow A t' l,
      (m' _).2 ⟨t', List.mem_singleton.2 rfl, l, hl, isStable_supportRow A t' l⟩,
      C05_monotone A u t' htt l _ _ hs (isStable_supportRow A t' l)⟩

/-- **C05** (default and smallest threshold).  Without thresholds a returned support contains
    exactly the coefficients nonzero in all bootstraps; with threshold 1 exactly those nonzero
    in some bootstrap. -/
theorem C05_default_is_intersection (A : Arr3 K) (h1 : A.n1 ≠ 1) (h2 : A.n2 ≠ 1) :
    (∃ rows, intersection A none = .ok (.d2 rows) ∧
      ∀ row, row ∈ rows ↔ ∃ l < A.n1, row.length = A.n2 ∧
        ∀ j < A.n2, row[j]? = some true ↔ ∀ b < A.n0, A.get b l j ≠ 0) ∧
    (∃ rows, intersection A (some [1]) = .ok (.d2 rows) ∧
      ∀ row, row ∈ rows ↔ ∃ l < A.n1, row.length = A.n2 ∧
        ∀ j < A.n2, row[j]? = some true ↔ ∃ b < A.n0, A.get b l j ≠ 0) := by
  have hnone : intersection A none = intersection A (some [(A.n0 : Int)]) := rfl
  have hall : ∀ l j, ((A.n0 : Int) ≤ ((selectedIn A l j).card : Int)) ↔
      ∀ b < A.n0, A.get b l j ≠ 0 := by
    intro l j
    have hle : (selectedIn A l j).card ≤ A.n0 := by
      have := Finset.card_filter_le (Finset.range A.n0) (fun b => A.get b l j ≠ 0)
      simpa [selectedIn] using this
    constructor
    · intro h b hb
      have hcard : (selectedIn A l j).card = (Finset.range A.n0).card := by
        rw [Finset.card_range]; omega
      have heq := Finset.eq_of_subset_of_card_le
        (Finset.filter_subset (fun b => A.get b l j ≠ 0) (Finset.range A.n0)) (le_of_eq hcard.symm)
      have : b ∈ Finset.filter (fun b => A.get b l j ≠ 0) (Finset.range A.n0) := by
        rw [heq]; exact Finset.mem_range.2 hb
      exact (Finset.mem_filter.1 this).2
    · intro h
      have : selectedIn A l j = Finset.range A.n0 :=
        Finset.filter_true_of_mem (fun b hb => h b (Finset.mem_range.1 hb))
      rw [this, Finset.card_range]
  have hone : ∀ l j, ((1 : Int) ≤ ((selectedIn A l j).card : Int)) ↔
      ∃ b < A.n0, A.get b l j ≠ 0 := by
    intro l j
    have : (1 : Int) ≤ ((selectedIn A l j).card : Int) ↔ 0 < (selectedIn A l j).card := by omega
    rw [this, Finset.card_pos]
    constructor
    · rintro ⟨b, hb⟩
      have := Finset.mem_filter.1 hb
      exact ⟨b, Finset.mem_range.1 this.1, this.2⟩
    · rintro ⟨b, hb, h⟩
      exact ⟨b, Finset.mem_filter.2 ⟨Finset.mem_range.2 hb, h⟩⟩
  constructor
  · obtain ⟨rows, e, m, _⟩ := C03_intersection_partial A [(A.n0 : Int)] (by simpa using h1) h2
    refine ⟨rows, hnone.trans e, fun row => ?_⟩
    rw [m row]
    simp only [List.mem_singleton, exists_eq_left, IsStable, hall]
  · obtain ⟨rows, e, m, _⟩ := C03_intersection_partial A [1] (by simpa using h1) h2
    refine ⟨rows, e, fun row => ?_⟩
    rw [m row]
    simp only [List.mem_singleton, exists_eq_left, IsStable, hone]

-- C05, concrete case
example : intersection exA none = .ok (.d2 [[false, false, true], [true, true, true]]) ∧
    intersection exA (some [1]) = .ok (.d2 [[true, true, true]]) := by decide

/-- **C06**.  With shared supports and `D > 1` classes the multi-class intersection returns a
    matrix whose rows are exactly the masks of the features that are stable for at least one
    class (for some threshold and regularization parameter), without repetition and in
    ascending lexicographic order.  Hypotheses: the coefficients are `D` blocks of `p ≥ 1`
    features and there is more than one (threshold, parameter) pair; the single-pair case
    inherits the defect of C03 (`C06_negation`). -/
theorem C06_union_over_classes_partial (A : Arr3 K) (ts : List Int) (D p : Nat) (hD : 1 < D)
    (hp : 0 < p) (hn2 : A.n2 = D * p) (h1 : 2 ≤ ts.length * A.n1) :
    ∃ rows, glmIntersect A (some ts) D true = .ok (.d2 rows) ∧
      (∀ row, row ∈ rows ↔ ∃ t ∈ ts, ∃ l < A.n1, IsStableAny A D t l row) ∧
      rows.Nodup ∧ rows.Pairwise LexLt := by
  have hDp : 1 < D * p := Nat.lt_of_lt_of_le hD (Nat.le_mul_of_pos_right D hp)
  have hlen : ∀ r ∈ uniqueRows (allRows A ts), r.length = D * p := by
    intro r hr
    rw [mem_uniqueRows, mem_allRows] at hr
    obtain ⟨t, _, l, _, rfl⟩ := hr
    rw [supportRow_length, hn2]
  have hne : allRows A ts ≠ [] := by
    intro h0
    have := length_allRows A ts
    rw [h0, List.length_nil] at this
    omega
  have hne' : uniqueRows (allRows A ts) ≠ [] := by
    obtain ⟨r, hr⟩ := List.exists_mem_of_ne_nil _ hne
    exact List.ne_nil_of_mem ((mem_uniqueRows r _).2 hr)
  have hhead : ((uniqueRows (allRows A ts)).headD []).length = D * p := by
    obtain ⟨r, rs, h⟩ := List.exists_cons_of_ne_nil hne'
    rw [h]
    exact hlen r (by rw [h]; exact List.mem_cons_self)
  have hflat := flatten_length_uniform hlen
  have hpdiv : D * p / D = p := Nat.mul_div_cancel_left p (by omega)
  have hglm : glmIntersect A (some ts) D true =
      .ok (.d2 (uniqueRows (orClasses (uniqueRows (allRows A ts)).flatten D p))) := by
    unfold glmIntersect
    rw [intersection_d2 (by omega) (by omega)]
    simp only [bind, Except.bind, flat, hhead, hpdiv]
    rw [if_pos (by simp [hD]), if_neg]
    · rfl
    · rw [hflat, Nat.mul_mod_left]
      simp
      omega
  refine ⟨_, hglm, ?_, nodup_uniqueRows _, ?_⟩
  · intro row
    rw [mem_uniqueRows]
    exact mem_orClasses hD hp hn2 row
  · refine (pairwise_uniqueRows _).imp_of_mem ?_
    intro a b ha hb hab
    rw [mem_uniqueRows] at ha hb
    exact rowLt_lex (by rw [orClasses_length ha, orClasses_length hb]) hab

/-- Two classes with two features each; class 0 uses feature 0, class 1 uses feature 1 at the
    first parameter, nothing is selected at the second. -/
def exC : Arr3 ℚ where
  n0 := 3
  n1 := 2
  n2 := 4
  get := fun _ l j => if l = 0 ∧ (j = 0 ∨ j = 3) then 1 else 0

example : (1 < 2) ∧ 0 < 2 ∧ exC.n2 = 2 * 2 ∧ 2 ≤ ([3] : List Int).length * exC.n1 := by decide
example : glmIntersect exC (some [3]) 2 true =
    .ok (.d2 [[false, false], [true, true]]) := by decide

/-- One parameter, three classes, two features; feature 0 selected for class 0. -/
def exC1 : Arr3 ℚ where
  n0 := 1
  n1 := 1
  n2 := 6
  get := fun _ _ j => if j = 0 then 1 else 0

/-- **C06** (partial), the other case: with a single output, or when supports are not shared, the
    candidates are the stable sets of single coefficients.  Missing: the shapes of `C03_negation`. -/
theorem C06_separate_partial (A : Arr3 K) (ts : List Int) (D : Nat) (shared : Bool) (hs : D ≤ 1 ∨ shared = false)
    (h1 : ts.length * A.n1 ≠ 1) (h2 : A.n2 ≠ 1) :
    ∃ rows, glmIntersect A (some ts) D shared = .ok (.d2 rows) ∧
      (∀ row, row ∈ rows ↔ ∃ t ∈ ts, ∃ l < A.n1, IsStable A t l row) ∧
      rows.Nodup ∧ rows.Pairwise LexLt := by
  obtain ⟨rows, h, hr⟩ := C03_intersection_partial A ts h1 h2
  refine ⟨rows, ?_, hr⟩
  unfold glmIntersect
  rw [h]
  have : (decide (D > 1) && shared) = false := by
    rcases hs with hs | hs
    · simp; intro h; omega
    · simp [hs]
  simp only [this, bind, Except.bind]
  rfl

example : glmIntersect exA (some [2]) 3 false = .ok (.d2 [[false, false, true], [true, true, true]]) ∧
    glmIntersect exA (some [2]) 3 true = .ok (.d2 [[true]]) := by decide

/-- **C06** fails with a single (threshold, parameter) pair: the masks of the classes are
    already lost and the call raises `ValueError`, although there is one stable support. -/
theorem C06_negation :
    IsStableAny exC1 3 1 0 [true, false] ∧
      glmIntersect exC1 (some [1]) 3 true = .error .valueError := by
  refine ⟨⟨rfl, ?_⟩, by decide⟩
  intro j hj
  have : j = 0 ∨ j = 1 := by simp at hj; omega
  rcases this with rfl | rfl
  · simp [selectedIn, exC1, Finset.filter]
    decide
  · simp [selectedIn, exC1, Finset.filter]

end Verif.Intersection
