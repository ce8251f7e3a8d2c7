import Verif.Lemmas.Unique
import Verif.Lemmas.Flatten
import Verif.Spec.Intersection
/-! Helper lemmas for C03-C06. -/
namespace Verif.Intersection
open Verif.Py Spec

variable {K : Type} [Zero K] [DecidableEq K]

theorem countNonzero_eq (A : Arr3 K) (l j : Nat) :
    countNonzero A l j = (selectedIn A l j).card := by
  unfold countNonzero selectedIn
  rfl

theorem supportRow_length (A : Arr3 K) (t : Int) (l : Nat) :
    (supportRow A t l).length = A.n2 := by simp [supportRow]

theorem supportRow_getElem (A : Arr3 K) (t : Int) (l j : Nat) (hj : j < A.n2) :
    (supportRow A t l)[j]? = some (decide (t ≤ ((selectedIn A l j).card : Int))) := by
  simp [supportRow, hj, countNonzero_eq]

theorem isStable_supportRow (A : Arr3 K) (t : Int) (l : Nat) :
    IsStable A t l (supportRow A t l) := by
  refine ⟨supportRow_length A t l, fun j hj => ?_⟩
  rw [supportRow_getElem A t l j hj]
  simp

theorem isStable_unique {A : Arr3 K} {t : Int} {l : Nat} {r s : List Bool}
    (hr : IsStable A t l r) (hs : IsStable A t l s) : r = s := by
  apply List.ext_getElem? 
  intro j
  by_cases hj : j < A.n2
  · have h1 := hr.2 j hj
    have h2 := hs.2 j hj
    have e1 : r[j]? = some (r[j]'(by rw [hr.1]; exact hj)) := List.getElem?_eq_getElem _
    have e2 : s[j]? = some (s[j]'(by rw [hs.1]; exact hj)) := List.getElem?_eq_getElem _
    rw [e1] at h1
    rw [e2] at h2
    rw [e1, e2]
    congr 1
    have : (r[j]'(by rw [hr.1]; exact hj) = true) ↔ (s[j]'(by rw [hs.1]; exact hj) = true) := by
      simp only [Option.some.injEq] at h1 h2
      rw [h1, h2]
    exact Bool.eq_iff_iff.2 this
  · rw [List.getElem?_eq_none (by rw [hr.1]; omega), List.getElem?_eq_none (by rw [hs.1]; omega)]

theorem isStable_iff {A : Arr3 K} {t : Int} {l : Nat} {r : List Bool} :
    IsStable A t l r ↔ r = supportRow A t l :=
  ⟨fun h => isStable_unique h (isStable_supportRow A t l),
   fun h => h ▸ isStable_supportRow A t l⟩

theorem mem_allRows {A : Arr3 K} {ts : List Int} {r : List Bool} :
    r ∈ allRows A ts ↔ ∃ t ∈ ts, ∃ l < A.n1, r = supportRow A t l := by
  simp only [allRows, List.mem_flatMap, List.mem_map, List.mem_range]
  constructor
  · rintro ⟨t, ht, l, hl, rfl⟩; exact ⟨t, ht, l, hl, rfl⟩
  · rintro ⟨t, ht, l, hl, rfl⟩; exact ⟨t, ht, l, hl, rfl⟩

theorem length_allRows (A : Arr3 K) (ts : List Int) :
    (allRows A ts).length = ts.length * A.n1 := by
  induction ts with
  | nil => simp [allRows]
  | cons t ts ih =>
    simp only [allRows, List.flatMap_cons, List.length_append, List.length_map,
      List.length_range, List.length_cons] at ih ⊢
    rw [ih, Nat.succ_mul, Nat.add_comm]

theorem squeeze2_d2 {rows : List (List Bool)} {p : Nat} (h1 : rows.length ≠ 1) (hp : p ≠ 1) :
    squeeze2 rows p = .d2 rows := by
  unfold squeeze2
  split
  · simp at h1
  · simp [hp]

theorem intersection_d2 {A : Arr3 K} {ts : List Int} (h1 : ts.length * A.n1 ≠ 1)
    (hp : A.n2 ≠ 1) :
    intersection A (some ts) = .ok (.d2 (uniqueRows (allRows A ts))) := by
  unfold intersection
  simp only []
  rw [squeeze2_d2 (by rw [length_allRows]; exact h1) hp]
  rfl

theorem lexLt_of_rows {A : Arr3 K} {ts : List Int} :
    (uniqueRows (allRows A ts)).Pairwise LexLt := by
  have h := pairwise_uniqueRows (allRows A ts)
  refine h.imp_of_mem ?_
  intro a b ha hb hab
  rw [mem_uniqueRows, mem_allRows] at ha hb
  obtain ⟨t, _, l, _, rfl⟩ := ha
  obtain ⟨t', _, l', _, rfl⟩ := hb
  exact rowLt_lex (by simp [supportRow_length]) hab

theorem orClasses_length {data : List Bool} {D p : Nat} {r : List Bool}
    (h : r ∈ orClasses data D p) : r.length = p := by
  simp only [orClasses, List.mem_map, List.mem_range] at h
  obtain ⟨i, _, rfl⟩ := h
  simp

theorem mem_orClasses {A : Arr3 K} {ts : List Int} {D p : Nat} (hD : 1 < D) (hp : 0 < p)
    (hn2 : A.n2 = D * p) (row : List Bool) :
    row ∈ orClasses (uniqueRows (allRows A ts)).flatten D p ↔
      ∃ t ∈ ts, ∃ l < A.n1, IsStableAny A D t l row := by
  have hDp : 0 < D * p := Nat.mul_pos (by omega) hp
  have hlen : ∀ r ∈ uniqueRows (allRows A ts), r.length = D * p := by
    intro r hr
    rw [mem_uniqueRows, mem_allRows] at hr
    obtain ⟨t, _, l, _, rfl⟩ := hr
    rw [supportRow_length, hn2]
  have hdiv : (uniqueRows (allRows A ts)).flatten.length / (D * p) =
      (uniqueRows (allRows A ts)).length := by
    rw [flatten_length_uniform hlen, Nat.mul_div_cancel _ hDp]
  have hidx : ∀ i c j, c < D → j < p →
      (uniqueRows (allRows A ts)).flatten.getD ((i * D + c) * p + j) false =
        ((uniqueRows (allRows A ts)).getD i []).getD (c * p + j) false := by
    intro i c j hc hj
    have e : (i * D + c) * p + j = i * (D * p) + (c * p + j) := by
      rw [Nat.add_mul, Nat.mul_assoc, Nat.add_assoc]
    have hlt : c * p + j < D * p := by
      have : (c + 1) * p ≤ D * p := Nat.mul_le_mul_right p hc
      rw [Nat.succ_mul] at this
      omega
    rw [e, flatten_getD_uniform hlen i (c * p + j) hlt]
  -- the mask computed from one support row
  have hrow : ∀ t l, IsStableAny A D t l ((List.range p).map fun j =>
      (List.range D).any fun c => (supportRow A t l).getD (c * p + j) false) := by
    intro t l
    refine ⟨by simp [hn2, Nat.mul_comm], ?_⟩
    intro j hj
    simp only [List.length_map, List.length_range] at hj
    simp only [List.length_map, List.length_range, List.getElem?_map,
      List.getElem?_range hj, Option.map_some, Option.some.injEq, List.any_eq_true,
      List.mem_range]
    constructor
    · rintro ⟨c, hc, h⟩
      have hlt : c * p + j < A.n2 := by
        have : (c + 1) * p ≤ D * p := Nat.mul_le_mul_right p hc
        rw [Nat.succ_mul] at this
        omega
      rw [List.getD_eq_getElem?_getD, supportRow_getElem A t l _ hlt] at h
      exact ⟨c, hc, by simpa using h⟩
    · rintro ⟨c, hc, h⟩
      have hlt : c * p + j < A.n2 := by
        have : (c + 1) * p ≤ D * p := Nat.mul_le_mul_right p hc
        rw [Nat.succ_mul] at this
        omega
      refine ⟨c, hc, ?_⟩
      rw [List.getD_eq_getElem?_getD, supportRow_getElem A t l _ hlt]
      simpa using h
  have huniq : ∀ t l r s, IsStableAny A D t l r → IsStableAny A D t l s → r = s := by
    intro t l r s hr hs
    have hl : r.length = s.length :=
      Nat.eq_of_mul_eq_mul_right (by omega : 0 < D) (hr.1.trans hs.1.symm)
    apply List.ext_getElem?
    intro j
    by_cases hj : j < r.length
    · have h1 := hr.2 j hj
      have h2 := hs.2 j (hl ▸ hj)
      rw [hl] at h1
      have e1 : r[j]? = some (r[j]'hj) := List.getElem?_eq_getElem _
      have e2 : s[j]? = some (s[j]'(hl ▸ hj)) := List.getElem?_eq_getElem _
      rw [e1] at h1 ⊢
      rw [e2] at h2 ⊢
      simp only [Option.some.injEq] at h1 h2 ⊢
      exact Bool.eq_iff_iff.2 (h1.trans h2.symm)
    · rw [List.getElem?_eq_none (by omega), List.getElem?_eq_none (by omega)]
  have hcomp : ∀ i, i < (uniqueRows (allRows A ts)).length → ∀ t l,
      (uniqueRows (allRows A ts))[i]? = some (supportRow A t l) →
      ((List.range p).map fun j => (List.range D).any fun c =>
        (uniqueRows (allRows A ts)).flatten.getD ((i * D + c) * p + j) false) =
      ((List.range p).map fun j =>
      (List.range D).any fun c => (supportRow A t l).getD (c * p + j) false) := by
    intro i _ t l h
    apply List.map_congr_left
    intro j hj
    rw [Bool.eq_iff_iff]
    simp only [List.any_eq_true, List.mem_range] at hj ⊢
    refine exists_congr fun c => and_congr_right fun hc => ?_
    rw [hidx i c j hc hj, List.getD_eq_getElem?_getD (l := uniqueRows _), h]
    simp
  constructor
  · intro h
    simp only [orClasses, List.mem_map, List.mem_range, hdiv] at h
    obtain ⟨i, hi, rfl⟩ := h
    have hm := List.getElem_mem hi
    rw [mem_uniqueRows, mem_allRows] at hm
    obtain ⟨t, ht, l, hl, he⟩ := hm
    refine ⟨t, ht, l, hl, ?_⟩
    rw [hcomp i hi t l (by rw [List.getElem?_eq_getElem hi, he])]
    exact hrow t l
  · rintro ⟨t, ht, l, hl, h⟩
    have hm : supportRow A t l ∈ uniqueRows (allRows A ts) := by
      rw [mem_uniqueRows, mem_allRows]; exact ⟨t, ht, l, hl, rfl⟩
    obtain ⟨i, hi, he⟩ := List.getElem_of_mem hm
    simp only [orClasses, List.mem_map, List.mem_range, hdiv]
    refine ⟨i, hi, ?_⟩
    rw [hcomp i hi t l (by rw [List.getElem?_eq_getElem hi, he])]
    exact huniq t l _ _ (hrow t l) h

end Verif.Intersection
