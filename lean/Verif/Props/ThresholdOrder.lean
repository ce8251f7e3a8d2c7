import Verif.Lemmas.ThresholdOrder
import Verif.Props.Intersection
import Verif.Props.Supports
import Verif.Props.Thresholds
/-!
The order and the repetition of thresholds, penalties and bootstraps (C135).
-/
namespace Verif.ThresholdOrder
open Verif.Py Verif.Intersection Verif.Intersection.Spec Verif.Thresholds Verif.Fit Verif.Supports

variable {K G S M RP : Type}

theorem mapM_perm {α β : Type} (f : α → Option β) {l l' : List α} (h : l.Perm l') :
    (l.mapM f = none ∧ l'.mapM f = none) ∨ ∃ m m', l.mapM f = some m ∧ l'.mapM f = some m' ∧ m.Perm m' := by
  have key : ∀ l : List α, l.mapM f = if ∀ a ∈ l, (f a).isSome then some (l.filterMap f) else none := by
    intro l
    induction l with
    | nil => simp
    | cons a l ih =>
      rw [List.mapM_cons, ih]
      cases ha : f a with
      | none => simp [ha]
      | some b =>
        by_cases hl : ∀ a ∈ l, (f a).isSome = true
        · rw [if_pos hl, if_pos (by
            intro c hc
            rcases List.mem_cons.1 hc with rfl | hc
            · rw [ha]; rfl
            · exact hl c hc), List.filterMap_cons_some ha]
          rfl
        · rw [if_neg hl, if_neg (fun hn => hl fun c hc => hn c (List.mem_cons_of_mem a hc))]
          rfl
  rw [key, key]
  by_cases hl : ∀ a ∈ l, (f a).isSome = true
  · exact .inr ⟨_, _, if_pos hl, if_pos (fun a ha => hl a (h.mem_iff.2 ha)), h.filterMap f⟩
  · exact .inl ⟨if_neg hl, if_neg fun hn => hl fun a ha => hn a (h.mem_iff.1 ha)⟩

/-- The bounds check does not depend on the order. -/
theorem bounds_perm {n : Nat} {ts ts' : List Int} (h : ts.Perm ts') :
    (ts.all (fun t => decide (t ≤ (n : Int))) && ts.all (fun t => decide (1 ≤ t))) =
      (ts'.all (fun t => decide (t ≤ (n : Int))) && ts'.all (fun t => decide (1 ≤ t))) := by
  have e : ∀ p : Int → Bool, ts.all p = ts'.all p := fun p => by
    rw [Bool.eq_iff_iff, List.all_eq_true, List.all_eq_true]
    exact forall_congr' fun t => by rw [h.mem_iff]
  rw [e, e]

/-- C135, the argument: a list or an array with its elements in another order is accepted or rejected alike, and
    gives the same thresholds in another order. -/
theorem C135_argument (S : FloatSem) (n : Nat) (a a' : Arg)
    (h : (∃ xs xs', a = .list xs ∧ a' = .list xs' ∧ xs.Perm xs') ∨
      (∃ xs xs', a = .arrFloat xs ∧ a' = .arrFloat xs' ∧ xs.Perm xs') ∨
      (∃ xs xs', a = .arrInt xs ∧ a' = .arrInt xs' ∧ xs.Perm xs')) :
    (stabilityToThreshold S a n = .error .valueError ∧ stabilityToThreshold S a' n = .error .valueError) ∨
    ∃ ts ts', stabilityToThreshold S a n = .ok ts ∧ stabilityToThreshold S a' n = .ok ts' ∧ ts.Perm ts' := by
  have hc : (convert S a n = .error .valueError ∧ convert S a' n = .error .valueError) ∨
      ∃ ts ts', convert S a n = .ok ts ∧ convert S a' n = .ok ts' ∧ ts.Perm ts' := by
    rcases h with ⟨xs, xs', rfl, rfl, h⟩ | ⟨xs, xs', rfl, rfl, h⟩ | ⟨xs, xs', rfl, rfl, h⟩
    · simp only [convert]
      rcases mapM_perm isFloat h with ⟨h1, h2⟩ | ⟨m, m', h1, h2, h3⟩
      · rw [h1, h2]
        rcases mapM_perm isInt h with ⟨h1, h2⟩ | ⟨m, m', h1, h2, h3⟩
        · rw [h1, h2]; exact .inl ⟨rfl, rfl⟩
        · rw [h1, h2]; exact .inr ⟨_, _, rfl, rfl, h3⟩
      · rw [h1, h2]; exact .inr ⟨_, _, rfl, rfl, h3.map _⟩
    · exact .inr ⟨_, _, rfl, rfl, h.map _⟩
    · exact .inr ⟨_, _, rfl, rfl, h⟩
  unfold stabilityToThreshold
  rcases hc with ⟨h1, h2⟩ | ⟨ts, ts', h1, h2, h3⟩
  · rw [h1, h2]; exact .inl ⟨rfl, rfl⟩
  · rw [h1, h2]
    simp only [bind, Except.bind]
    rw [bounds_perm h3]
    split
    · exact .inr ⟨_, _, rfl, rfl, h3⟩
    · exact .inl ⟨rfl, rfl⟩

example : ∃ ts ts', stabilityToThreshold exactSem (.list [.float (.fin (1/2)), .float (.fin 1)]) 24 = .ok ts ∧
    stabilityToThreshold exactSem (.list [.float (.fin 1), .float (.fin (1/2))]) 24 = .ok ts' ∧ ts.Perm ts' := by
  rcases C135_argument exactSem 24 (.list [.float (.fin (1/2)), .float (.fin 1)])
    (.list [.float (.fin 1), .float (.fin (1/2))]) (.inl ⟨_, _, rfl, rfl, List.Perm.swap _ _ _⟩) with h | h
  · exact absurd h.1 (by decide +kernel)
  · exact h

/-- C135, the fit: with the thresholds in another order every process runs exactly the same program, so the
    fitted model (or the exception) is the same. -/
theorem C135_fit [LinearOrder K] [Field K] (env : Env K G S M RP) (ts : List Int) (h : env.thresholds.Perm ts)
    (size rank : Nat) (g : G) (s : S) :
    fit { env with thresholds := ts } size rank g s = fit env size rank g s := by
  refine fit_thresholds env ts (fun A => ?_) size rank g s
  have e : intersection A (some ts) = intersection A (some env.thresholds) := unique0_perm (allRows_perm A h.symm) _
  unfold Env.intersect glmIntersect
  simp only [e]

/-- Three thresholds in another order, on four processes. -/
example : fit { demo with thresholds := [2, 1, 1] } 4 3 0 0 = fit { demo with thresholds := [1, 2, 1] } 4 3 0 0 :=
  C135_fit { demo with thresholds := [1, 2, 1] } [2, 1, 1] (List.Perm.swap _ _ _) 4 3 0 0

/-- C135, repetition (partial): nor does it matter how often a threshold is given, if there are at least two
    of them both times, or at least two penalties in a serial fit.  Missing: a single pair of a threshold and
    a penalty (`C135_negation`). -/
theorem C135_repeat_partial [LinearOrder K] [Field K] (env : Env K G S M RP) (ts : List Int)
    (h : ∀ t, t ∈ ts ↔ t ∈ env.thresholds) (size rank : Nat)
    (h2 : (ts.length ≠ 1 ∧ env.thresholds.length ≠ 1) ∨ (size ≤ 1 ∧ env.regParams.length ≠ 1)) (g : G) (s : S) :
    fit { env with thresholds := ts } size rank g s = fit env size rank g s := by
  have key : ∀ A : Arr3 K, ts.length * A.n1 ≠ 1 → env.thresholds.length * A.n1 ≠ 1 →
      Env.intersect { env with thresholds := ts } A = env.intersect A := by
    intro A h1 h2
    have e : intersection A (some ts) = intersection A (some env.thresholds) := by
      refine unique0_set (fun r => ?_) (by rw [length_allRows]; exact h1) (by rw [length_allRows]; exact h2) _
      rw [mem_allRows, mem_allRows]
      exact exists_congr fun t => by rw [h]
    unfold Env.intersect glmIntersect
    simp only [e]
  rcases h2 with ⟨h1, h2⟩ | ⟨h1, h2⟩
  · exact fit_thresholds env ts (fun A => key A (fun h => h1 (Nat.eq_one_of_mul_eq_one_right h))
      fun h => h2 (Nat.eq_one_of_mul_eq_one_right h)) size rank g s
  · have h2' : env.nReg ≠ 1 := h2
    exact fit_thresholds_serial env ts (fun A hA => key A (fun h => h2' (hA ▸ Nat.eq_one_of_mul_eq_one_left h))
      fun h => h2' (hA ▸ Nat.eq_one_of_mul_eq_one_left h)) h1 rank g s

/-- One threshold given three times, with two penalties. -/
example : fit { demo with thresholds := [2, 2, 2] } 1 0 0 0 = fit demo 1 0 0 0 :=
  C135_repeat_partial demo [2, 2, 2] (fun t => by simp [demo]) 1 0 (.inr ⟨le_refl _, by decide⟩) 0 0

/-- C135 is false with a single penalty: giving the single threshold twice changes the result of the fit from
    the vector `[False]` to the matrix with the one candidate `[False, False]`. -/
theorem C135_negation : ∃ st st', fit demoPair 1 0 0 0 = .ret st ∧
    fit { demoPair with thresholds := [2, 2] } 1 0 0 0 = .ret st' ∧ demoPair.thresholds = [2] ∧
    st.supports = .d1 [false] ∧ st'.supports = .d2 [[false, false]] := by
  obtain ⟨-, -, st, h, -, hs⟩ := C111_negation
  have h' : ((fit { demoPair with thresholds := [2, 2] } 1 0 0 0).outcome.map fun r => r.map (·.supports)) =
      some (.ok (.d2 [[false, false]])) := by decide +kernel
  rcases ho : (fit { demoPair with thresholds := [2, 2] } 1 0 0 0).outcome with _ | r
  · rw [ho] at h'; cases h'
  · rw [ho] at h'
    rcases r with e | st'
    · cases h'
    · exact ⟨st, st', h, ret_of_outcome ho, rfl, hs, Except.ok.inj (Option.some.inj h')⟩

variable [Zero K] [DecidableEq K]

/-- C135, bootstraps and penalties: `intersection` (and the variant for several classes) does not depend on the
    order of the bootstraps nor on that of the penalties in the array of coefficients. -/
theorem C135_bootstraps (A : Arr3 K) (ts : Option (List Int)) (σ τ : Nat → Nat)
    (hσ : Set.BijOn σ (Set.Iio A.n0) (Set.Iio A.n0)) (hτ : Set.BijOn τ (Set.Iio A.n1) (Set.Iio A.n1)) (D : Nat)
    (shared : Bool) :
    intersection ⟨A.n0, A.n1, A.n2, fun b l j => A.get (σ b) (τ l) j⟩ ts = intersection A ts ∧
    glmIntersect ⟨A.n0, A.n1, A.n2, fun b l j => A.get (σ b) (τ l) j⟩ ts D shared = glmIntersect A ts D shared := by
  have e : intersection ⟨A.n0, A.n1, A.n2, fun b l j => A.get (σ b) (τ l) j⟩ ts = intersection A ts := by
    unfold intersection
    cases ts with
    | none => exact unique0_perm (allRows_reorder A _ hσ hτ) _
    | some ts => exact unique0_perm (allRows_reorder A _ hσ hτ) _
  refine ⟨e, ?_⟩
  unfold glmIntersect
  rw [e]

/-- The two bootstraps and the two penalties of `exA` exchanged. -/
example : intersection ⟨2, 2, 3, fun b l j => exA.get (1 - b) (1 - l) j⟩ (some [2]) =
    .ok (.d2 [[false, false, true], [true, true, true]]) := by
  have h : Set.BijOn (fun b : Nat => 1 - b) (Set.Iio 2) (Set.Iio 2) := by
    refine ⟨fun x hx => ?_, fun x hx y hy e => ?_, fun x hx => ⟨1 - x, ?_, ?_⟩⟩ <;>
      simp only [Set.mem_Iio] at * <;> omega
  exact (C135_bootstraps exA (some [2]) _ _ h h 1 false).1.trans (by decide)

/-- C135, more thresholds and more penalties (partial): they only add candidates.  Missing: a single pair, or a
    single coefficient (C03, C04). -/
theorem C135_more_partial (A B : Arr3 K) (ts us : List Int) (h0 : B.n0 = A.n0) (h2 : B.n2 = A.n2)
    (hp : ∀ l < A.n1, ∃ l' < B.n1, ∀ b < A.n0, ∀ j < A.n2, B.get b l' j = A.get b l j) (ht : ∀ t ∈ ts, t ∈ us)
    (h1 : ts.length * A.n1 ≠ 1) (h1' : us.length * B.n1 ≠ 1) (hn2 : A.n2 ≠ 1) :
    ∃ rows rows', intersection A (some ts) = .ok (.d2 rows) ∧ intersection B (some us) = .ok (.d2 rows') ∧
      ∀ r ∈ rows, r ∈ rows' := by
  obtain ⟨rows, e, m, -⟩ := C03_intersection_partial A ts h1 hn2
  obtain ⟨rows', e', m', -⟩ := C03_intersection_partial B us h1' (by rw [h2]; exact hn2)
  refine ⟨rows, rows', e, e', fun r hr => ?_⟩
  obtain ⟨t, htt, l, hl, hs1, hs2⟩ := (m r).1 hr
  obtain ⟨l', hl', hg⟩ := hp l hl
  refine (m' r).2 ⟨t, ht t htt, l', hl', by rw [hs1, h2], fun j hj => ?_⟩
  rw [h2] at hj
  rw [hs2 j hj]
  have : selectedIn A l j = selectedIn B l' j := by
    unfold selectedIn
    rw [h0]
    refine Finset.filter_congr fun b hb => ?_
    rw [hg b (Finset.mem_range.1 hb) j hj]
  rw [this]

/-- With the threshold 1 in addition, `exA` has a third candidate. -/
example : ∃ rows rows', intersection exA (some [2]) = .ok (.d2 rows) ∧ intersection exA (some [1, 2]) = .ok (.d2 rows') ∧
    ∀ r ∈ rows, r ∈ rows' :=
  C135_more_partial exA exA [2] [1, 2] rfl rfl (fun l hl => ⟨l, hl, fun _ _ _ _ => rfl⟩) (by decide) (by decide)
    (by decide) (by decide)

end Verif.ThresholdOrder
