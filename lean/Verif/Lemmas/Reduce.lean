import Verif.Py.Reduce
/-! Lemmas on the NumPy reductions. -/
namespace Verif.Py
variable {K : Type}

theorem argmaxFrom_spec [LinearOrder K] (xs : List K) (pre : List K) (bi : Nat) (b : K)
    (hb : pre[bi]? = some b) (hmax : ∀ p y, pre[p]? = some y → y ≤ b ∧ (p < bi → y < b)) :
    ∃ x, (pre ++ xs)[argmaxFrom bi b pre.length xs]? = some x ∧
      ∀ p y, (pre ++ xs)[p]? = some y → y ≤ x ∧ (p < argmaxFrom bi b pre.length xs → y < x) := by
  induction xs generalizing pre bi b with
  | nil => simpa [argmaxFrom] using ⟨b, hb, hmax⟩
  | cons x xs ih =>
    have e : pre ++ x :: xs = (pre ++ [x]) ++ xs := by simp
    have hbi : bi < pre.length := (List.getElem?_eq_some_iff.1 hb).1
    have hl : (pre ++ [x]).length = pre.length + 1 := by simp
    have hcase : ∀ p y, (pre ++ [x])[p]? = some y →
        (p < pre.length ∧ pre[p]? = some y) ∨ (p = pre.length ∧ y = x) := by
      intro p y hp
      have hlt := (List.getElem?_eq_some_iff.1 hp).1
      rw [hl] at hlt
      rw [List.getElem?_append] at hp
      split at hp
      · rename_i h; exact .inl ⟨h, hp⟩
      · rename_i h
        have : p = pre.length := by omega
        subst this
        simp at hp
        exact .inr ⟨rfl, hp.symm⟩
    rw [e]
    simp only [argmaxFrom, ← hl]
    split
    · rename_i hlt
      refine ih _ _ _ (by simp) fun p y hp => ?_
      rcases hcase p y hp with ⟨h, hp⟩ | ⟨h, hy⟩
      · exact ⟨((hmax p y hp).1.trans_lt hlt).le, fun _ => (hmax p y hp).1.trans_lt hlt⟩
      · exact ⟨hy.le, fun hh => by omega⟩
    · rename_i hlt
      refine ih _ _ _ (by rw [List.getElem?_append_left hbi]; exact hb) fun p y hp => ?_
      rcases hcase p y hp with ⟨h, hp⟩ | ⟨h, hy⟩
      · exact hmax p y hp
      · exact ⟨hy ▸ not_lt.1 hlt, fun hh => by omega⟩

theorem argmax_spec [LinearOrder K] {xs : List K} {i : Nat} (h : argmax xs = .ok i) :
    ∃ x, xs[i]? = some x ∧ ∀ p y, xs[p]? = some y → y ≤ x ∧ (p < i → y < x) := by
  cases xs with
  | nil => cases h
  | cons x xs =>
    simp only [argmax, Except.ok.injEq] at h
    subst h
    have := argmaxFrom_spec xs [x] 0 x (by simp) (by
      intro p y hp
      cases p with
      | zero => simp at hp; exact ⟨hp ▸ le_refl _, fun h => by omega⟩
      | succ p => simp at hp)
    simpa using this

end Verif.Py
