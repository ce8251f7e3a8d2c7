import Verif.Model.Ties
import Verif.Spec.Ties
import Verif.Lemmas.HeldOut
import Verif.Lemmas.InfoChoice
import Verif.Props.Intersection
/-! Lemmas on ties between candidates. -/
namespace Verif.Ties
open Verif.Py Verif.HeldOut Verif.Intersection Verif.Intersection.Spec Verif.Spec.Ties

theorem correct_eq (y p : List Nat) : (List.zipWith (fun a b => if a = b then 1 else 0) y p).sum = correct y p := by
  unfold correct
  induction y generalizing p with
  | nil => simp
  | cons a y ih =>
    cases p with
    | nil => simp
    | cons b p =>
      simp only [List.zipWith_cons_cons, List.sum_cons, List.zip_cons_cons, List.filter_cons, ih]
      by_cases h : a = b
      · simp [h]; omega
      · simp [h]

theorem accuracy_eq {y p : List Nat} (hl : p.length = y.length) (h0 : y ≠ []) :
    accuracy y p = .ok (.fin ((correct y p : ℚ) / y.length)) := by
  unfold accuracy
  rw [if_neg (by simp [hl]), if_neg h0, correct_eq]

theorem mapE_ok {α β : Type} {f : α → Except PyErr β} {g : α → β} {l : List α} (h : ∀ a ∈ l, f a = .ok (g a)) :
    mapE f l = .ok (l.map g) := by
  induction l with
  | nil => rfl
  | cons a l ih =>
    simp only [mapE, h a (by simp), ih fun b hb => h b (by simp [hb]), List.map_cons]

/-- In sorted candidates a part of a candidate comes before it. -/
theorem part_before {rows : List (List Bool)} (hs : rows.Pairwise LexLt) {i j : Nat} {S T : List Bool} (hi : rows[i]? = some T)
    (hj : rows[j]? = some S) (h : Part S T) : j < i := by
  by_contra hc
  rcases Nat.lt_or_ge i j with hij | hij
  · obtain ⟨a, ha⟩ := List.getElem?_eq_some_iff.1 hi
    obtain ⟨b, hb⟩ := List.getElem?_eq_some_iff.1 hj
    have := List.pairwise_iff_getElem.1 hs i j a b hij
    rw [ha, hb] at this
    obtain ⟨m, -, hT, hS⟩ := this
    have := h.1 m hS
    rw [hT] at this
    cases this
  · obtain rfl : i = j := by omega
    rw [hi] at hj
    exact h.2 (Option.some.inj hj).symm

theorem chooseScored_spec {K M : Type} [Zero K] [DecidableEq K] [LinearOrder M] {A : Arr3 K} {ts : List Int}
    {score : List Bool → Ext M} (h1 : ts.length * A.n1 ≠ 1) (h2 : A.n2 ≠ 1) (h0 : ts ≠ [] ∧ A.n1 ≠ 0) (hn : ∀ S, score S ≠ .nan) :
    ∃ (rows : List (List Bool)) (i : Nat) (T : List Bool), intersection A (some ts) = .ok (.d2 rows) ∧
      (∀ row, row ∈ rows ↔ ∃ t ∈ ts, ∃ l < A.n1, IsStable A t l row) ∧ rows.Pairwise LexLt ∧
      rows[i]? = some T ∧ chooseScored A ts score = .ok T ∧ (∀ S ∈ rows, ltExt (score T) (score S) = false) ∧
      ∀ j < i, ∀ S, rows[j]? = some S → ltExt (score S) (score T) = true := by
  obtain ⟨rows, hr, hmem, -, hs⟩ := C03_intersection_partial A ts h1 h2
  have hne : rows ≠ [] := by
    obtain ⟨t, ht⟩ := List.exists_mem_of_ne_nil ts h0.1
    have := (hmem _).2 ⟨t, ht, 0, Nat.pos_of_ne_zero h0.2, isStable_supportRow A t 0⟩
    exact List.ne_nil_of_mem this
  obtain ⟨i, hi, b, hb, hmax, hfirst⟩ := argmaxExt_first (L := rows.map score) (by
    intro x hx; obtain ⟨S, -, rfl⟩ := List.mem_map.1 hx; exact hn S) (by simpa using hne)
  rw [List.getElem?_map] at hb
  obtain ⟨T, hT, rfl⟩ := Option.map_eq_some_iff.1 hb
  refine ⟨rows, i, T, hr, hmem, hs, hT, ?_, fun S hS => hmax _ (List.mem_map_of_mem hS), fun j hj S hS => ?_⟩
  · simp only [chooseScored, hr, hi, hT]
  · exact hfirst j hj _ (by rw [List.getElem?_map, hS]; rfl)

/-- Choice by accuracy is choice by that score. -/
theorem chooseSupport_eq {K : Type} [Zero K] [DecidableEq K] (A : Arr3 K) (ts : List Int) {y : List Nat} {predict : List Bool → List Nat}
    (hl : ∀ S, (predict S).length = y.length) (h0 : y ≠ []) :
    chooseSupport A ts y predict = chooseScored A ts fun S => .fin ((correct y (predict S) : ℚ) / y.length) := by
  unfold chooseSupport chooseScored
  have e : ∀ rows : List (List Bool), chooseAcc y (rows.map predict) =
      argmaxExt (rows.map fun S => (.fin ((correct y (predict S) : ℚ) / y.length) : Ext ℚ)) := by
    intro rows
    unfold chooseAcc
    rw [mapE_ok (g := fun p => .fin ((correct y p : ℚ) / y.length)) (by
      intro p hp
      obtain ⟨S, -, rfl⟩ := List.mem_map.1 hp
      exact accuracy_eq (hl S) h0)]
    simp only [List.map_map]
    rfl
  simp only [e]

theorem acc_lt {y : List Nat} (h0 : y ≠ []) (a b : Nat) :
    ltExt (.fin ((a : ℚ) / y.length)) (.fin ((b : ℚ) / y.length)) = true ↔ a < b := by
  have : (0 : ℚ) < y.length := by exact_mod_cast List.length_pos_iff.2 h0
  simp only [ltExt, decide_eq_true_eq]
  rw [div_lt_div_iff_of_pos_right this]
  exact_mod_cast Iff.rfl

end Verif.Ties
