import Mathlib.Data.List.Perm.Basic
import Mathlib.Data.Set.Function
import Verif.Lemmas.Intersection
import Verif.Model.Fit
import Verif.Model.Thresholds
/-! Helper lemmas about the order and the repetition of thresholds, penalties and bootstraps (C135). -/
namespace Verif.Intersection
open Verif.Py Spec

variable {K : Type} [Zero K] [DecidableEq K]

/-- Strictly ascending lists with the same elements are equal. -/
theorem sorted_ext {l l' : List (List Bool)} (h : l.Pairwise fun a b => rowLt a b = true)
    (h' : l'.Pairwise fun a b => rowLt a b = true) (hm : ∀ r, r ∈ l ↔ r ∈ l') : l = l' := by
  have hn : ∀ {m : List (List Bool)}, m.Pairwise (fun a b => rowLt a b = true) → m.Nodup := fun hm =>
    hm.imp fun {a b} hab e => by subst e; rw [rowLt_irrefl] at hab; cases hab
  refine List.Perm.eq_of_pairwise ?_ h h' ((List.perm_ext_iff_of_nodup (hn h) (hn h')).2 hm)
  intro a b _ _ h1 h2
  have := rowLt_trans h1 h2
  rw [rowLt_irrefl] at this
  cases this

/-- `numpy.unique` only depends on the set of rows. -/
theorem uniqueRows_congr {l l' : List (List Bool)} (h : ∀ r, r ∈ l ↔ r ∈ l') : uniqueRows l = uniqueRows l' :=
  sorted_ext (pairwise_uniqueRows l) (pairwise_uniqueRows l') fun r => by rw [mem_uniqueRows, mem_uniqueRows, h]

theorem uniqueBools_congr {l l' : List Bool} (h : ∀ r, r ∈ l ↔ r ∈ l') : uniqueBools l = uniqueBools l' := by
  unfold uniqueBools
  simp only [List.contains_iff_mem, h]

/-- Rows in another order give the same array. -/
theorem unique0_perm {l l' : List (List Bool)} (h : l.Perm l') (p : Nat) :
    unique0 (squeeze2 l p) = unique0 (squeeze2 l' p) := by
  by_cases h1 : l.length = 1
  · obtain ⟨r, rfl⟩ := List.length_eq_one_iff.1 h1
    rw [List.singleton_perm.1 h]
  · have key : ∀ m : List (List Bool), m.length ≠ 1 →
        squeeze2 m p = if p = 1 then .d1 (m.map fun r => r.headD false) else .d2 m := by
      intro m hm
      unfold squeeze2
      split
      · exact absurd rfl hm
      · rfl
    rw [key l h1, key l' (by rw [← h.length_eq]; exact h1)]
    split_ifs
    · show Except.ok (BArr.d1 _) = .ok (.d1 _)
      rw [uniqueBools_congr fun r => (h.map _).mem_iff]
    · show Except.ok (BArr.d2 _) = .ok (.d2 _)
      rw [uniqueRows_congr fun r => h.mem_iff]

/-- The same set of rows, if there are more than one of them. -/
theorem unique0_set {l l' : List (List Bool)} (h : ∀ r, r ∈ l ↔ r ∈ l') (hl : l.length ≠ 1) (hl' : l'.length ≠ 1)
    (p : Nat) : unique0 (squeeze2 l p) = unique0 (squeeze2 l' p) := by
  have key : ∀ m : List (List Bool), m.length ≠ 1 →
      squeeze2 m p = if p = 1 then .d1 (m.map fun r => r.headD false) else .d2 m := by
    intro m hm
    unfold squeeze2
    split
    · exact absurd rfl hm
    · rfl
  rw [key l hl, key l' hl']
  split_ifs
  · show Except.ok (BArr.d1 _) = .ok (.d1 _)
    rw [uniqueBools_congr (l := l.map fun r => r.headD false) (l' := l'.map fun r => r.headD false)
      fun r => by simp only [List.mem_map, h]]
  · show Except.ok (BArr.d2 _) = .ok (.d2 _)
    rw [uniqueRows_congr h]

theorem allRows_perm (A : Arr3 K) {ts ts' : List Int} (h : ts.Perm ts') : (allRows A ts).Perm (allRows A ts') :=
  h.flatMap_right _

/-- A bijection of the first `n` numbers permutes their list. -/
theorem range_perm {n : Nat} {τ : Nat → Nat} (h : Set.BijOn τ (Set.Iio n) (Set.Iio n)) :
    ((List.range n).map τ).Perm (List.range n) := by
  refine (List.perm_ext_iff_of_nodup ?_ List.nodup_range).2 fun l => ?_
  · exact List.Nodup.map_on (fun x hx y hy e => h.injOn (List.mem_range.1 hx) (List.mem_range.1 hy) e)
      List.nodup_range
  · simp only [List.mem_map, List.mem_range]
    constructor
    · rintro ⟨a, ha, rfl⟩
      exact h.mapsTo ha
    · intro hl
      obtain ⟨a, ha, e⟩ := h.surjOn hl
      exact ⟨a, ha, e⟩

/-- The array with its bootstraps and its penalties in another order. -/
theorem allRows_reorder (A : Arr3 K) (ts : List Int) {σ τ : Nat → Nat}
    (hσ : Set.BijOn σ (Set.Iio A.n0) (Set.Iio A.n0)) (hτ : Set.BijOn τ (Set.Iio A.n1) (Set.Iio A.n1)) :
    (allRows ⟨A.n0, A.n1, A.n2, fun b l j => A.get (σ b) (τ l) j⟩ ts).Perm (allRows A ts) := by
  refine List.Perm.flatMap_left _ fun t _ => ?_
  have e : (List.range A.n1).map (supportRow ⟨A.n0, A.n1, A.n2, fun b l j => A.get (σ b) (τ l) j⟩ t)
      = ((List.range A.n1).map τ).map (supportRow A t) := by
    rw [List.map_map]
    refine List.map_congr_left fun l _ => ?_
    show List.map _ _ = List.map _ _
    refine List.map_congr_left fun j _ => ?_
    have : countNonzero ⟨A.n0, A.n1, A.n2, fun b l j => A.get (σ b) (τ l) j⟩ l j = countNonzero A (τ l) j := by
      have e2 := ((range_perm hσ).filter fun b => decide (A.get b (τ l) j ≠ 0)).length_eq
      rw [List.filter_map, List.length_map] at e2
      exact e2
    rw [this]
  show (List.map _ (List.range A.n1)).Perm _
  rw [e]
  exact (range_perm hτ).map _

end Verif.Intersection

namespace Verif.Fit
open Verif.Py Verif.Intersection

variable {K G S M RP : Type}

theorem drawBoots_thresholds (env : Env K G S M RP) (ts : List Int) (size rank : Nat) (est : Bool) :
    ∀ (k : Nat) (g : G), drawBoots { env with thresholds := ts } size rank est k g = drawBoots env size rank est k g
  | 0, _ => rfl
  | k + 1, g => by
    unfold drawBoots
    simp only [drawBoots_thresholds env ts size rank est k]

theorem sweep_thresholds (env : Env K G S M RP) (ts : List Int) (train : List Nat) :
    ∀ (regs : List RP) (s : S), sweep { env with thresholds := ts } s regs train = sweep env s regs train
  | [], _ => rfl
  | r :: regs, s => by
    unfold sweep
    simp only [sweep_thresholds env ts train regs]
    rfl

theorem selLoop_thresholds (env : Env K G S M RP) (ts : List Int) (size : Nat) (keys : List Nat)
    (boots : List Split) : ∀ (tasks : List Nat) (c : Option Nat) (s : S),
      selLoop { env with thresholds := ts } size keys boots tasks c s = selLoop env size keys boots tasks c s
  | [], _, _ => rfl
  | t :: tasks, c, s => by
    unfold selLoop
    simp only [selLoop_thresholds env ts size keys boots tasks, sweep_thresholds]
    rfl

/-- If the intersections agree, so do the fits. -/
theorem fit_thresholds [LinearOrder K] [Field K] (env : Env K G S M RP) (ts : List Int)
    (h : ∀ A, Env.intersect { env with thresholds := ts } A = env.intersect A) (size rank : Nat) (g : G) (s : S) :
    fit { env with thresholds := ts } size rank g s = fit env size rank g s := by
  have hsel : ∀ boots, selection { env with thresholds := ts } size rank boots s = selection env size rank boots s := by
    intro boots
    unfold selection
    simp only [h]
    have e : ∀ keys tasks, selLoop { env with thresholds := ts } size keys boots tasks none s =
      selLoop env size keys boots tasks none s := fun keys tasks => selLoop_thresholds env ts size keys boots tasks _ _
    simp only [e]
    rfl
  unfold fit
  simp only [drawBoots_thresholds, hsel]
  rfl

/-- In a serial fit the intersections only have to agree on arrays with one row per penalty. -/
theorem fit_thresholds_serial [LinearOrder K] [Field K] (env : Env K G S M RP) (ts : List Int)
    (h : ∀ A : Arr3 K, A.n1 = env.nReg → Env.intersect { env with thresholds := ts } A = env.intersect A)
    {size : Nat} (hsize : size ≤ 1) (rank : Nat) (g : G) (s : S) :
    fit { env with thresholds := ts } size rank g s = fit env size rank g s := by
  have hsel : ∀ boots, selection { env with thresholds := ts } size rank boots s = selection env size rank boots s := by
    intro boots
    unfold selection
    have e : ∀ keys tasks, selLoop { env with thresholds := ts } size keys boots tasks none s =
      selLoop env size keys boots tasks none s := fun keys tasks => selLoop_thresholds env ts size keys boots tasks _ _
    simp only [e, if_neg (not_lt.2 hsize), gt_iff_lt]
    have e2 : ∀ rows, (toArr3 { env with thresholds := ts } false (selArr { env with thresholds := ts } size rows) >>=
        fun A => Env.intersect { env with thresholds := ts } A) =
        (toArr3 env false (selArr env size rows) >>= fun A => env.intersect A) := by
      intro rows
      show (toArr3 env false (selArr env size rows) >>= _) = _
      have h3 : ∀ A, toArr3 env false (selArr env size rows) = .ok A → A.n1 = env.nReg := by
        intro A hA
        unfold toArr3 selArr at hA
        cases hf : env.fine size with
        | true => simp [hf] at hA
        | false =>
          simp only [hf, Bool.false_eq_true, if_false, Except.ok.injEq] at hA
          rw [← hA]
      cases hA : toArr3 env false (selArr env size rows) with
      | error e => rfl
      | ok A => exact h A (h3 A hA)
    simp only [bind] at e2 ⊢
    simp only [e2]
    rfl
  unfold fit
  simp only [drawBoots_thresholds, hsel]
  rfl

end Verif.Fit
