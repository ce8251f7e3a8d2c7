import Mathlib.Tactic.Ring
import Mathlib.Tactic.FieldSimp
import Mathlib.Tactic.Linarith
import Mathlib.Data.Fintype.BigOperators
import Mathlib.Algebra.BigOperators.Group.List.Basic
import Mathlib.Algebra.BigOperators.Fin
import Mathlib.Algebra.Order.BigOperators.Group.List
import Verif.Model.Datasets
import Verif.Spec.Datasets
/-! Lemmas on the data generators. -/
namespace Verif.Datasets
open Verif.Py Verif.Spec.Datasets
variable {σ K : Type} [Field K] [LinearOrder K]

theorem length_informative (n : Nat) (k : Int) : (informative n k : List K).length = n := by
  simp only [informative, List.length_append, List.length_replicate]
  have : sliceLen n k ≤ n := by unfold sliceLen; split_ifs <;> omega
  omega

theorem count_informative (n : Nat) (k : Int) :
    (informative n k : List K).countP (· ≠ 0) = sliceLen n k := by
  simp [informative, List.countP_append, List.countP_replicate]

theorem mem_informative (n : Nat) (k : Int) : ∀ v ∈ (informative n k : List K), v = 0 ∨ v = 1 := by
  intro v hv
  simp only [informative, List.mem_append, List.mem_replicate] at hv
  tauto

theorem countP_card (l : List K) (p : K → Bool) :
    (Finset.univ.filter fun i : Fin l.length => p l[i]).card = l.countP p := by
  induction l with
  | nil => rfl
  | cons x xs ih =>
    rw [List.countP_cons, ← ih, Finset.card_filter, Finset.card_filter]
    change ∑ i : Fin (xs.length + 1), _ = _
    rw [Fin.sum_univ_succ, add_comm]
    rfl

theorem sparse_mask {draws mask : List K} (hl : mask.length = draws.length)
    (h01 : ∀ v ∈ mask, v = 0 ∨ v = 1) :
    SparseFrom (mask.countP (· ≠ 0)) draws (List.zipWith (· * ·) draws mask) := by
  refine ⟨by simp [hl], Finset.univ.filter fun i => mask[i.val]'(by rw [hl]; exact i.2) ≠ 0, ?_, ?_⟩
  · rw [← countP_card]
    refine Finset.card_bij (fun i _ => ⟨i.val, hl.symm ▸ i.2⟩) ?_ ?_ ?_
    · intro i hi; simpa using hi
    · intro i _ j _ h; exact Fin.ext (by simpa using h)
    · intro i hi; exact ⟨⟨i.val, hl ▸ i.2⟩, by simpa using hi, rfl⟩
  · intro i
    have hi : i.val < mask.length := by rw [hl]; exact i.2
    rw [List.getElem?_eq_getElem (by simp [hl])]
    simp only [List.getElem_zipWith, Finset.mem_filter, Finset.mem_univ, true_and, Option.some.injEq]
    rcases h01 _ (List.getElem_mem hi) with h | h
    · simp [h]
    · simp [h]

theorem sparse_countP {m : Nat} {draws out : List K} (h : SparseFrom m draws out) :
    nonzeros out ≤ m ∧ ((∀ v ∈ draws, v ≠ 0) → nonzeros out = m) := by
  obtain ⟨hl, keep, hk, hv⟩ := h
  unfold nonzeros
  rw [← countP_card]
  have hv' : ∀ (i : Nat) (h1 : i < out.length) (h2 : i < draws.length),
      out[i] = if ⟨i, h2⟩ ∈ keep then draws[i] else 0 := by
    intro i h1 h2
    have := hv ⟨i, h2⟩
    rw [List.getElem?_eq_getElem h1, Option.some.injEq] at this
    exact this
  constructor
  · rw [← hk]
    refine Finset.card_le_card_of_injOn (fun i => ⟨i.val, hl ▸ i.2⟩) ?_ ?_
    · intro i hi
      simp only [Finset.coe_filter, Finset.mem_univ, true_and, Set.mem_ofPred_eq, decide_eq_true_eq,
        Fin.getElem_fin] at hi
      rw [hv' i.val i.2 (hl ▸ i.2)] at hi
      by_contra hc
      rw [if_neg (by simpa using hc)] at hi
      exact hi rfl
    · intro i _ j _ h; exact Fin.ext (by simpa using h)
  · intro hd
    rw [← hk]
    refine Finset.card_bij (fun i _ => ⟨i.val, hl ▸ i.2⟩) ?_ ?_ ?_
    · intro i hi
      simp only [Finset.mem_filter, Finset.mem_univ, true_and, decide_eq_true_eq, Fin.getElem_fin] at hi
      rw [hv' i.val i.2 (hl ▸ i.2)] at hi
      by_contra hc
      rw [if_neg hc] at hi
      exact hi rfl
    · intro i _ j _ h; exact Fin.ext (by simpa using h)
    · intro i hi
      refine ⟨⟨i.val, hl.symm ▸ i.2⟩, ?_, rfl⟩
      simp only [Finset.mem_filter, Finset.mem_univ, true_and, decide_eq_true_eq, Fin.getElem_fin]
      rw [hv' i.val (hl.symm ▸ i.2) i.2, if_pos hi]
      exact hd _ (List.getElem_mem _)

theorem sparse_zeroAt {n m : Nat} {p : List Nat} (hp : p.Perm (List.range n)) {w : List K}
    (hw : w.length = n) (hm : m ≤ n) (c : K) :
    SparseFrom (n - m) (w.map (· * c)) ((zeroAt (p.take m) w).map (· * c)) := by
  subst hw
  have hnd : p.Nodup := hp.nodup_iff.2 List.nodup_range
  have hlen : p.length = w.length := by rw [hp.length_eq]; simp
  refine ⟨by simp [zeroAt], Finset.univ.filter fun i => i.val ∉ p.take m, ?_, ?_⟩
  · have e1 := Finset.card_filter_add_card_filter_not (s := (Finset.univ : Finset (Fin (w.map (· * c)).length)))
      (fun i => i.val ∈ p.take m)
    have e2 : (Finset.univ.filter fun i : Fin (w.map (· * c)).length => i.val ∈ p.take m).card = m := by
      have : m = (p.take m).toFinset.card := by
        rw [List.toFinset_card_of_nodup (hnd.sublist (List.take_sublist _ _)), List.length_take, hlen,
          min_eq_left hm]
      conv_rhs => rw [this]
      refine Finset.card_bij (fun i _ => i.val) ?_ ?_ ?_
      · intro i hi; simpa using hi
      · intro i _ j _ h; exact Fin.ext h
      · intro i hi
        have hi' : i ∈ p.take m := by simpa using hi
        have : i ∈ List.range w.length := hp.subset (List.mem_of_mem_take hi')
        exact ⟨⟨i, by simpa using this⟩, by simpa using hi', rfl⟩
    rw [e2] at e1
    simp only [Finset.card_univ, Fintype.card_fin, List.length_map] at e1
    omega
  · intro i
    have hi : i.val < w.length := by simpa using i.2
    rw [List.getElem?_map, zeroAt, List.getElem?_mapIdx, List.getElem?_eq_getElem hi]
    simp only [Option.map_some, Option.some.injEq, Finset.mem_filter, Finset.mem_univ, true_and]
    by_cases h : i.val ∈ p.take m <;> simp [h]

theorem drawRows_length (r : Rng σ K) (hg : ∀ n s, (r.gaussian n s).1.length = n) (n : Nat) :
    ∀ (m : Nat) (s : σ), (drawRows r n m s).1.length = m ∧
      ∀ w ∈ (drawRows r n m s).1, w.length = n := by
  intro m
  induction m with
  | zero => intro s; exact ⟨rfl, by simp [drawRows]⟩
  | succ m ih =>
    intro s
    obtain ⟨h1, h2⟩ := ih (r.gaussian n s).2
    refine ⟨by simp [drawRows, h1], ?_⟩
    intro w hw
    simp only [drawRows, List.mem_cons] at hw
    rcases hw with rfl | hw
    · exact hg n s
    · exact h2 w hw

theorem zeroEach_spec (r : Rng σ K) (hp : ∀ n s, (r.permutation n s).1.Perm (List.range n)) {n : Nat}
    {k : Nat} (hk : k ≤ n) (c : K) (ws : List (List K)) (hw : ∀ w ∈ ws, w.length = n) (s : σ) :
    List.Forall₂ (SparseFrom k) (ws.map fun w => w.map (· * c))
      ((zeroEach r n ((n : Int) - k) ws s).1.map fun w => w.map (· * c)) := by
  have hsl : sliceLen n ((n : Int) - k) = n - k := by simp only [sliceLen]; split_ifs <;> omega
  induction ws generalizing s with
  | nil => exact .nil
  | cons w ws ih =>
    have h := sparse_zeroAt (hp n s) (hw w (List.mem_cons_self ..)) (Nat.sub_le n k) c
    rw [show n - (n - k) = k by omega] at h
    simp only [zeroEach, zeroed, hsl, List.map_cons]
    exact .cons h (ih (fun w' h' => hw w' (List.mem_cons_of_mem _ h')) _)

theorem dot_eq_sum {n : Nat} {x b : List K} (hx : x.length = n) (hb : b.length = n) :
    dot x b = ∑ j : Fin n, x.getD j 0 * b.getD j 0 := by
  unfold dot
  induction n generalizing x b with
  | zero => rw [List.length_eq_zero_iff.1 hx]; simp
  | succ n ih =>
    cases x with
    | nil => cases hx
    | cons u x =>
      cases b with
      | nil => cases hb
      | cons v b =>
        rw [List.zipWith_cons_cons, List.sum_cons, Fin.sum_univ_succ,
          ih (Nat.succ.inj hx) (Nat.succ.inj hb)]
        rfl

end Verif.Datasets
