import Mathlib.Data.List.Basic
import Verif.Py.Unique
/-! Helper lemmas about `numpy.unique` on boolean rows. -/
namespace Verif.Py

theorem rowLt_irrefl (a : List Bool) : rowLt a a = false := by
  induction a with
  | nil => rfl
  | cons a as ih => simp [rowLt, ih]

theorem rowLt_trans {a b c : List Bool} (h1 : rowLt a b = true) (h2 : rowLt b c = true) :
    rowLt a c = true := by
  induction a generalizing b c with
  | nil =>
    cases c with
    | nil => cases b <;> simp [rowLt] at h2
    | cons => rfl
  | cons x as ih =>
    cases b with
    | nil => simp [rowLt] at h1
    | cons y bs =>
      cases c with
      | nil => simp [rowLt] at h2
      | cons z cs =>
        cases x <;> cases y <;> cases z <;> simp [rowLt] at h1 h2 ⊢ <;> exact ih h1 h2

theorem rowLt_trichotomy (a b : List Bool) :
    rowLt a b = true ∨ a = b ∨ rowLt b a = true := by
  induction a generalizing b with
  | nil => cases b <;> simp [rowLt]
  | cons x as ih =>
    cases b with
    | nil => simp [rowLt]
    | cons y bs =>
      cases x <;> cases y <;> simp [rowLt] <;> exact ih bs

theorem mem_insertRow (r s : List Bool) (ss : List (List Bool)) :
    s ∈ insertRow r ss ↔ s = r ∨ s ∈ ss := by
  induction ss with
  | nil => simp [insertRow]
  | cons t ts ih =>
    unfold insertRow
    split
    · simp
    · split
      · next h => simp at h; subst h; simp
      · simp [ih]; tauto

theorem pairwise_insertRow (r : List Bool) (ss : List (List Bool))
    (h : ss.Pairwise fun a b => rowLt a b = true) :
    (insertRow r ss).Pairwise fun a b => rowLt a b = true := by
  induction ss with
  | nil => simp [insertRow]
  | cons t ts ih =>
    have ht := List.pairwise_cons.1 h
    unfold insertRow
    split
    · next hlt =>
      refine List.pairwise_cons.2 ⟨?_, h⟩
      intro x hx
      rcases List.mem_cons.1 hx with rfl | hx
      · exact hlt
      · exact rowLt_trans hlt (ht.1 x hx)
    · next hlt =>
      split
      · exact h
      · next hne =>
        refine List.pairwise_cons.2 ⟨?_, ih ht.2⟩
        intro x hx
        rcases (mem_insertRow r x ts).1 hx with rfl | hx
        · rcases rowLt_trichotomy x t with h' | h' | h'
          · exact absurd h' hlt
          · exact absurd h' (by simpa using hne)
          · exact h'
        · exact ht.1 x hx

theorem mem_uniqueRows (s : List Bool) (rows : List (List Bool)) :
    s ∈ uniqueRows rows ↔ s ∈ rows := by
  induction rows with
  | nil => simp [uniqueRows]
  | cons r rows ih =>
    have : uniqueRows (r :: rows) = insertRow r (uniqueRows rows) := rfl
    rw [this, mem_insertRow, ih, List.mem_cons]

theorem pairwise_uniqueRows (rows : List (List Bool)) :
    (uniqueRows rows).Pairwise fun a b => rowLt a b = true := by
  induction rows with
  | nil => simp [uniqueRows]
  | cons r rows ih => exact pairwise_insertRow r _ ih

theorem nodup_uniqueRows (rows : List (List Bool)) : (uniqueRows rows).Nodup := by
  refine (pairwise_uniqueRows rows).imp ?_
  intro a b h hab
  subst hab
  rw [rowLt_irrefl] at h
  cases h

theorem rowLt_lex {a b : List Bool} (hlen : a.length = b.length) (h : rowLt a b = true) :
    ∃ i : Nat, (∀ j < i, a[j]? = b[j]?) ∧ a[i]? = some false ∧ b[i]? = some true := by
  induction a generalizing b with
  | nil => cases b <;> simp [rowLt] at h hlen
  | cons x as ih =>
    cases b with
    | nil => simp at hlen
    | cons y bs =>
      by_cases hxy : x = y
      · subst hxy
        simp [rowLt] at h
        obtain ⟨i, h1, h2, h3⟩ := ih (by simpa using hlen) h
        refine ⟨i + 1, ?_, by simpa using h2, by simpa using h3⟩
        intro j hj
        cases j with
        | zero => simp
        | succ j => simpa using h1 j (by omega)
      · refine ⟨0, by simp, ?_, ?_⟩ <;>
          cases x <;> cases y <;> simp [rowLt] at h hxy ⊢

end Verif.Py
