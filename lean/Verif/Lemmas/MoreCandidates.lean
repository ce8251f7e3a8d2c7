import Verif.Lemmas.Ties
import Verif.Props.ThresholdOrder
import Verif.Spec.MoreCandidates
/-! Lemmas on the choice from more candidates. -/
namespace Verif.Lemmas.MoreCandidates
open Verif.Py Verif.HeldOut Verif.Intersection Verif.Intersection.Spec Verif.Ties Verif.Spec.MoreCandidates

/-- Of two elements of a list, each first among the best, there is only one. -/
theorem first_unique {M : Type} [LinearOrder M] {score : List Bool → Ext M} {rows rows' : List (List Bool)}
    (hs : rows.Pairwise LexLt) (hs' : rows'.Pairwise LexLt) {i i' : Nat} {T T' : List Bool}
    (hT : rows[i]? = some T) (hT' : rows'[i']? = some T') (hm : ∀ S ∈ rows, ltExt (score T) (score S) = false)
    (hf : ∀ j < i, ∀ S, rows[j]? = some S → ltExt (score S) (score T) = true)
    (hm' : ∀ S ∈ rows', ltExt (score T') (score S) = false)
    (hf' : ∀ j < i', ∀ S, rows'[j]? = some S → ltExt (score S) (score T') = true)
    (hsub : ∀ r ∈ rows, r ∈ rows') (hin : T' ∈ rows) : T' = T := by
  by_contra hne
  obtain ⟨j, hj⟩ := List.mem_iff_getElem?.1 hin
  obtain ⟨a, ha⟩ := List.getElem?_eq_some_iff.1 hT
  obtain ⟨b, hb⟩ := List.getElem?_eq_some_iff.1 hj
  have hmem := hsub T (List.mem_of_getElem? hT)
  rcases lt_trichotomy j i with h | h | h
  · have := hf j h T' hj
    rw [hm' T hmem] at this
    cases this
  · subst h
    rw [hT] at hj
    exact hne (Option.some.inj hj).symm
  · -- `T` comes first in `rows`, hence in `rows'`
    have hlt : LexLt T T' := by
      have := List.pairwise_iff_getElem.1 hs i j a b h
      rwa [ha, hb] at this
    obtain ⟨j', hj'⟩ := List.mem_iff_getElem?.1 hmem
    obtain ⟨c, hc⟩ := List.getElem?_eq_some_iff.1 hj'
    obtain ⟨d, hd⟩ := List.getElem?_eq_some_iff.1 hT'
    rcases lt_trichotomy j' i' with h' | h' | h'
    · have := hf' j' h' T hj'
      rw [hm T' hin] at this
      cases this
    · subst h'
      rw [hj'] at hT'
      exact hne (Option.some.inj hT').symm
    · have h2 : LexLt T' T := by
        have := List.pairwise_iff_getElem.1 hs' i' j' d c h'
        rwa [hd, hc] at this
      obtain ⟨m, e, h3, h4⟩ := hlt
      obtain ⟨m', e', h3', h4'⟩ := h2
      rcases lt_trichotomy m m' with h | h | h
      · rw [e' m h, h3] at h4
        cases h4
      · subst h
        rw [h3] at h4'
        cases h4'
      · rw [e m' h, h3'] at h4'
        cases h4'

end Verif.Lemmas.MoreCandidates
