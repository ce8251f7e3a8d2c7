import Mathlib.Tactic.Linarith
import Mathlib.Data.List.Sort
import Verif.Model.Recovery
import Verif.Spec.Recovery
import Verif.Lemmas.Scaling
import Verif.Props.HeldOut
/-!
Lemmas about the recovery of noise-free data.
-/
namespace Verif.Recovery
open Verif.Py Verif.HeldOut Verif.Scaling Verif.Spec.Recovery Verif.Spec.HeldOut

variable {K : Type} {n p : Nat}

/-- In a sorted list the entries before a smaller one, or after a larger one, are not `v`. -/
theorem count_sorted [LinearOrder K] {s : List K} (hs : s.Pairwise (· ≤ ·)) {k : Nat} {x v : K}
    (hk : s[k]? = some x) : (x < v → s.count v + k + 1 ≤ s.length) ∧ (v < x → s.count v ≤ k) := by
  obtain ⟨hlt, hx⟩ := List.getElem?_eq_some_iff.mp hk
  have hp := List.pairwise_iff_getElem.mp hs
  constructor
  · intro h
    have h0 : (s.take (k + 1)).count v = 0 := by
      refine List.count_eq_zero.mpr fun hm => ?_
      obtain ⟨i, hi, rfl⟩ := List.mem_iff_getElem.mp hm
      rw [List.getElem_take] at h
      rw [List.length_take] at hi
      rcases Nat.lt_or_ge i k with hik | hik
      · have := hp i k (by omega) hlt hik
        rw [hx] at this
        exact absurd h (not_lt.mpr this)
      · have : i = k := by omega
        subst this
        rw [hx] at h
        exact lt_irrefl _ h
    have e : s.count v = (s.take (k + 1)).count v + (s.drop (k + 1)).count v := by
      rw [← List.count_append, List.take_append_drop]
    have h1 := List.count_le_length (a := v) (l := s.drop (k + 1))
    rw [List.length_drop] at h1
    omega
  · intro h
    have h0 : (s.drop k).count v = 0 := by
      refine List.count_eq_zero.mpr fun hm => ?_
      obtain ⟨i, hi, rfl⟩ := List.mem_iff_getElem.mp hm
      rw [List.getElem_drop] at h
      rw [List.length_drop] at hi
      rcases Nat.eq_zero_or_pos i with hik | hik
      · subst hik
        simp only [Nat.add_zero, hx] at h
        exact lt_irrefl _ h
      · have := hp k (k + i) hlt (by omega) (by omega)
        rw [hx] at this
        exact absurd h (not_lt.mpr this)
    have e : s.count v = (s.take k).count v + (s.drop k).count v := by
      rw [← List.count_append, List.take_append_drop]
    have h1 := List.count_le_length (a := v) (l := s.take k)
    rw [List.length_take] at h1
    omega

/-- The median is the value of a majority. -/
theorem median_majority [LinearOrder K] [Field K] [CharZero K] (nan v : K) (xs : List K)
    (h : xs.length < 2 * xs.count v) : median nan xs = v := by
  have hperm := List.perm_insertionSort (· ≤ ·) xs
  have hsort : (xs.insertionSort (· ≤ ·)).Pairwise (· ≤ ·) := List.pairwise_insertionSort (· ≤ ·) xs
  unfold median
  generalize xs.insertionSort (· ≤ ·) = s at hperm hsort
  rw [← hperm.length_eq, ← hperm.count_eq] at h
  have hc := List.count_le_length (a := v) (l := s)
  have mid : ∀ k, k < s.length → s.length ≤ 2 * k + 2 → 2 * k ≤ s.length → s.getD k nan = v := by
    intro k hk h1 h2
    have e : s[k]? = some s[k] := List.getElem?_eq_getElem hk
    obtain ⟨ha, hb⟩ := count_sorted (v := v) hsort e
    rw [List.getD_eq_getElem?_getD, e, Option.getD_some]
    rcases lt_trichotomy s[k] v with hl | he | hg
    · have := ha hl; omega
    · exact he
    · have := hb hg; omega
  simp only
  rw [if_neg (by omega)]
  split_ifs with hodd
  · exact mid _ (by omega) (by omega) (by omega)
  · rw [mid _ (by omega) (by omega) (by omega), mid _ (by omega) (by omega) (by omega)]
    ring

section
variable [LinearOrder K] [Field K]

omit [LinearOrder K] in
theorem affine_eq (w : Fin p → K) (c : K) (x : Fin p → K) : linPred w c x = affine w c x := rfl

omit [LinearOrder K] in
theorem affine_sub (w w' : Fin p → K) (c c' : K) (x : Fin p → K) :
    affine (fun j => w j - w' j) (c - c') x = affine w c x - affine w' c' x := by
  simp only [affine, sub_mul, Finset.sum_sub_distrib]
  ring

theorem sum_sq_eq_zero [IsStrictOrderedRing K] {α : Type} (l : List α) (f : α → K)
    (h : (l.map fun a => f a ^ 2).sum ≤ 0) : ∀ a ∈ l, f a = 0 := by
  intro a ha
  have hn : ∀ x ∈ l.map fun a => f a ^ 2, 0 ≤ x := by
    intro x hx
    obtain ⟨b, -, rfl⟩ := List.mem_map.mp hx
    exact sq_nonneg _
  have h1 := List.single_le_sum hn _ (List.mem_map.mpr ⟨a, ha, rfl⟩)
  exact pow_eq_zero_iff two_ne_zero |>.mp (le_antisymm (h1.trans h) (sq_nonneg _))

omit [LinearOrder K] in
theorem sqError_pred (X : Fin n → Fin p → K) (y : Fin n → K) (rows : List (Fin n)) (f : Fitted K p) :
    sqError (rows.map y) (predictions X rows f) = sse X y rows f.coef f.intercept := by
  unfold sqError predictions sse
  rw [List.zip_map', List.map_map]
  congr 1
  refine List.map_congr_left fun i _ => ?_
  simp only [Function.comp, affine_eq, pow_two]

theorem argmaxExtFrom_lt (bi : Nat) (b : Ext K) (i : Nat) (xs : List (Ext K)) :
    argmaxExtFrom bi b i xs = bi ∨ argmaxExtFrom bi b i xs < i + xs.length := by
  induction xs generalizing bi b i with
  | nil => exact .inl rfl
  | cons x xs ih =>
    simp only [argmaxExtFrom, List.length_cons]
    split_ifs
    · exact .inl rfl
    · rcases ih i x (i + 1) with h | h <;> omega
    · rcases ih bi b (i + 1) with h | h <;> omega

/-- Without candidates nothing can be chosen, otherwise the choice succeeds. -/
theorem bestEstimate_ok (ols : Ols K n p) (X : Fin n → Fin p → K) (y : Fin n → K)
    {supports : List (Fin p → Bool)} (h0 : supports ≠ []) (b : Boot n) :
    ∃ S ∈ supports, bestEstimate ols X y supports b = .ok (candidate ols X y b.train S).coef := by
  unfold bestEstimate
  simp only
  rw [choose_eq (by
    intro q hq
    obtain ⟨f, -, rfl⟩ := List.mem_map.mp hq
    simp [predictions])]
  obtain ⟨i, hi, hlt⟩ : ∃ i, argmaxExt (((supports.map (candidate ols X y b.train)).map
      (predictions X b.test)).map (r2Score (b.test.map y))) = .ok i ∧ i < supports.length := by
    cases supports with
    | nil => exact absurd rfl h0
    | cons S T =>
      refine ⟨_, rfl, ?_⟩
      rcases argmaxExtFrom_lt 0 (r2Score (b.test.map y) (predictions X b.test
        (candidate ols X y b.train S))) 1 (((T.map (candidate ols X y b.train)).map
        (predictions X b.test)).map (r2Score (b.test.map y))) with h | h
      · rw [List.length_cons]; omega
      · simp only [List.length_map] at h
        rw [List.length_cons]
        omega
  rw [hi]
  refine ⟨supports[i], List.getElem_mem hlt, ?_⟩
  simp only [List.getElem?_map, List.getElem?_eq_getElem hlt, Option.map_some]

/-- A bootstrap that allows recovery gives the true coefficients. -/
theorem bestEstimate_good [IsStrictOrderedRing K] {ols : Ols K n p} {fi : Bool} {X : Fin n → Fin p → K}
    {y : Fin n → K} {beta : Fin p → K} {c : K} {supports : List (Fin p → Bool)} {b : Boot n}
    (hols : ∀ S ∈ supports, (∃ j, S j = true) → IsLeastSquares fi X y b.train S
      (ols X y b.train S).coef (ols X y b.train S).intercept)
    (hy : ∀ i, y i = affine beta c (X i)) (hc : fi = false → c = 0)
    (hg : Good fi X y beta supports b.train b.test) :
    bestEstimate ols X y supports b = .ok beta := by
  obtain ⟨⟨S, hS, hbS, hdet⟩, hsep, hvar⟩ := hg
  have hv : Varies (b.test.map y) := by
    obtain ⟨i, hi, i', hi', hne⟩ := hvar
    exact ⟨y i, List.mem_map.mpr ⟨i, hi, rfl⟩, y i', List.mem_map.mpr ⟨i', hi', rfl⟩, hne⟩
  -- the complete candidate is exact on the training rows, hence is the truth
  have hSne : ∃ j, S j = true := by
    by_contra hno
    have hb0 : ∀ j, beta j = 0 := fun j => by
      by_contra hj
      exact hno ⟨j, hbS j hj⟩
    obtain ⟨i, -, i', -, hne⟩ := hvar
    exact hne (by rw [hy, hy]; simp [affine, hb0])
  have hfit : candidate ols X y b.train S = ⟨beta, c⟩ := by
    unfold candidate
    rw [if_pos hSne]
    obtain ⟨hadm, hmin⟩ := hols S hS hSne
    have h0 : sse X y b.train beta c = 0 := by
      unfold sse
      simp [hy]
    have hle := hmin beta c ⟨fun j hj => (by
      by_contra hne
      rw [hbS j hne] at hj
      cases hj), hc⟩
    rw [h0] at hle
    have hz := sum_sq_eq_zero _ _ hle
    obtain ⟨hd, he⟩ := hdet (fun j => beta j - (ols X y b.train S).coef j)
      (c - (ols X y b.train S).intercept) (fun j hj => by
        have hj' : S j = false := by simpa using hj
        rw [hadm.1 j hj', sub_zero]
        by_contra hne
        exact hj (hbS j hne)) (fun hf => by rw [hc hf, hadm.2 hf, sub_zero])
      (fun i hi => by rw [affine_sub, ← hy i]; exact hz i hi)
    have e1 : (ols X y b.train S).coef = beta := funext fun j => (sub_eq_zero.mp (hd j)).symm
    have e2 : (ols X y b.train S).intercept = c := (sub_eq_zero.mp he).symm
    cases h : ols X y b.train S
    rw [h] at e1 e2
    simp only at e1 e2
    rw [e1, e2]
  -- so the best candidate has no error on the test rows
  have hlen : ∀ q ∈ (supports.map (candidate ols X y b.train)).map (predictions X b.test),
      q.length = (b.test.map y).length := by
    intro q hq
    obtain ⟨f, -, rfl⟩ := List.mem_map.mp hq
    simp [predictions]
  have hne : (supports.map (candidate ols X y b.train)).map (predictions X b.test) ≠ [] := by
    intro h
    rw [List.map_eq_nil_iff, List.map_eq_nil_iff] at h
    rw [h] at hS
    cases hS
  obtain ⟨i, hi, q, hq, hbest, -⟩ := Verif.Props.C125_best_partial hv hlen hne
  rw [List.getElem?_map, List.getElem?_map] at hq
  unfold bestEstimate
  simp only
  rw [hi]
  simp only [List.getElem?_map]
  cases hT : supports[i]? with
  | none => rw [hT] at hq; cases hq
  | some T =>
    rw [hT] at hq
    simp only [Option.map_some, Option.some.injEq] at hq ⊢
    have hTm : T ∈ supports := List.mem_iff_getElem?.mpr ⟨i, hT⟩
    have hle := hbest (predictions X b.test (candidate ols X y b.train S))
      (List.mem_map.mpr ⟨_, List.mem_map.mpr ⟨S, hS, rfl⟩, rfl⟩)
    rw [← hq, sqError_pred, sqError_pred, hfit] at hle
    have h0 : sse X y b.test beta c = 0 := by
      unfold sse
      simp [hy]
    simp only [h0] at hle
    have hz := sum_sq_eq_zero _ _ hle
    by_cases hTne : ∃ j, T j = true
    · unfold candidate at hz ⊢
      rw [if_pos hTne] at hz ⊢
      obtain ⟨hadm, -⟩ := hols T hTm hTne
      obtain ⟨hd, -⟩ := hsep T hTm (fun j => beta j - (ols X y b.train T).coef j)
        (c - (ols X y b.train T).intercept) (fun j hj => by
          push Not at hj
          have hj' : T j = false := by simpa using hj.1
          rw [hadm.1 j hj', sub_zero]
          exact hj.2) (fun hf => by rw [hc hf, hadm.2 hf, sub_zero])
        (fun i hi => by rw [affine_sub, ← hy i]; exact hz i hi)
      exact congrArg Except.ok (funext fun j => (sub_eq_zero.mp (hd j)).symm)
    · unfold candidate at hz
      rw [if_neg hTne] at hz
      obtain ⟨i, hi, i', hi', hne⟩ := hvar
      have a := hz i hi
      have a' := hz i' hi'
      simp only [affine, zero_mul, Finset.sum_const_zero, zero_add] at a a'
      exact absurd (by rw [sub_eq_zero.mp a, sub_eq_zero.mp a']) hne

theorem mapE_total {α β : Type} {f : α → Except PyErr β} (g : α → β) {xs : List α}
    (h : ∀ x ∈ xs, f x = .ok (g x)) : mapE f xs = .ok (xs.map g) := by
  induction xs with
  | nil => rfl
  | cons a as ih =>
    rw [mapE, h a (List.mem_cons_self ..), ih fun x hx => h x (List.mem_cons_of_mem _ hx)]
    rfl

theorem forall₂_mem {α β : Type} {R : α → β → Prop} {xs : List α} {ys : List β}
    (h : List.Forall₂ R xs ys) {y : β} (hy : y ∈ ys) : ∃ x ∈ xs, R x y := by
  induction h with
  | nil => cases hy
  | cons hr _ ih =>
    rcases List.mem_cons.mp hy with rfl | hy
    · exact ⟨_, List.mem_cons_self .., hr⟩
    · obtain ⟨x, hx, h⟩ := ih hy
      exact ⟨x, List.mem_cons_of_mem _ hx, h⟩

/-- The estimation stage returns the truth when more than half of the bootstraps allow recovery. -/
theorem estimate_good [IsStrictOrderedRing K] {ols : Ols K n p} {fi : Bool} {X : Fin n → Fin p → K}
    {y : Fin n → K} {beta : Fin p → K} {c : K} {supports : List (Fin p → Bool)} {boots : List (Boot n)}
    (hols : ∀ b ∈ boots, ∀ S ∈ supports, (∃ j, S j = true) → IsLeastSquares fi X y b.train S
      (ols X y b.train S).coef (ols X y b.train S).intercept)
    (hy : ∀ i, y i = affine beta c (X i)) (hc : fi = false → c = 0)
    (hg : ∃ g : List (Boot n), g.Sublist boots ∧ boots.length < 2 * g.length ∧
      ∀ b ∈ g, Good fi X y beta supports b.train b.test) :
    estimate ols supports boots X y = .ok beta := by
  obtain ⟨g, hsub, hlen, hgood⟩ := hg
  have h0 : supports ≠ [] := by
    intro h
    cases g with
    | nil => simp at hlen
    | cons b g =>
      obtain ⟨S, hS, -⟩ := (hgood b (List.mem_cons_self ..)).complete
      rw [h] at hS
      cases hS
  let r : Boot n → Fin p → K := fun b => match bestEstimate ols X y supports b with
    | .ok w => w
    | .error _ => fun _ => 0
  have hr : ∀ b ∈ boots, bestEstimate ols X y supports b = .ok (r b) := by
    intro b _
    obtain ⟨S, -, e⟩ := bestEstimate_ok ols X y h0 b
    simp only [r, e]
  have hrg : ∀ b ∈ g, r b = beta := by
    intro b hb
    simp only [r, bestEstimate_good (hols b (hsub.subset hb)) hy hc (hgood b hb)]
  unfold estimate
  rw [mapE_total r hr]
  refine congrArg Except.ok (funext fun j => median_majority _ _ _ ?_)
  rw [List.map_map, List.length_map]
  have e : g.map ((fun w => w j) ∘ r) = List.replicate g.length (beta j) := by
    rw [List.eq_replicate_iff]
    refine ⟨List.length_map .., fun x hx => ?_⟩
    obtain ⟨b, hb, rfl⟩ := List.mem_map.mp hx
    simp only [Function.comp, hrg b hb]
  have := (hsub.map ((fun w => w j) ∘ r)).count_le (beta j)
  rw [e, List.count_replicate_self] at this
  omega

end

/-! ### Standardization -/

/-- Coefficients and intercept of the truth in standardized units. -/
noncomputable def scaledTruth (fi : Bool) (sX : Scaler ℝ p) (sy : Scaler ℝ 1) (beta : Fin p → ℝ) (c : ℝ) :
    (Fin p → ℝ) × ℝ :=
  (fun j => beta j * sX.scale j / sy.scale 0,
    if fi then (c + (∑ j, beta j * sX.mean j) - sy.mean 0) / sy.scale 0 else 0)

theorem scaledTruth_spec {fi : Bool} {sX : Scaler ℝ p} {sy : Scaler ℝ 1} (hX : ∀ j, sX.scale j ≠ 0)
    (hy : sy.scale 0 ≠ 0) (hmX : sX.withMean = fi) (hmy : sy.withMean = fi) (beta : Fin p → ℝ) (c : ℝ)
    (hc : fi = false → c = 0) (x : Fin p → ℝ) :
    sy.apply (fun _ => affine beta c x) 0 =
      affine (scaledTruth fi sX sy beta c).1 (scaledTruth fi sX sy beta c).2 (sX.apply x) := by
  unfold scaledTruth Scaler.apply affine
  rw [hmX, hmy]
  cases fi with
  | true =>
    simp only [if_true]
    have : ∀ j, beta j * sX.scale j / sy.scale 0 * ((x j - sX.mean j) / sX.scale j) =
        (beta j * x j - beta j * sX.mean j) / sy.scale 0 := fun j => by
      have := hX j
      field_simp
    rw [Finset.sum_congr rfl fun j _ => this j, ← Finset.sum_div, Finset.sum_sub_distrib]
    field_simp
    ring
  | false =>
    simp only [Bool.false_eq_true, if_false, hc rfl, add_zero]
    have : ∀ j, beta j * sX.scale j / sy.scale 0 * (x j / sX.scale j) = beta j * x j / sy.scale 0 :=
      fun j => by
        have := hX j
        field_simp
    rw [Finset.sum_congr rfl fun j _ => this j, ← Finset.sum_div]

theorem linPost_scaledTruth {fi : Bool} {sX : Scaler ℝ p} {sy : Scaler ℝ 1} (hX : ∀ j, sX.scale j ≠ 0)
    (hy : sy.scale 0 ≠ 0) (beta : Fin p → ℝ) (c : ℝ) (hc : fi = false → c = 0) :
    linPost true fi sX sy (scaledTruth fi sX sy beta c).1 (scaledTruth fi sX sy beta c).2 = (beta, c) := by
  unfold linPost scaledTruth
  simp only [if_true]
  have e : ∀ j, beta j * sX.scale j / sy.scale 0 / sX.scale j * sy.scale 0 = beta j := fun j => by
    have := hX j
    field_simp
  simp only [e]
  congr 1
  cases fi with
  | true =>
    simp only [if_true]
    rw [div_mul_cancel₀ _ hy, Finset.sum_congr rfl fun j _ => mul_comm (sX.mean j) (beta j)]
    ring
  | false => simp [hc rfl]

theorem determines_scaled {fi : Bool} {sX : Scaler ℝ p} (hX : ∀ j, sX.scale j ≠ 0)
    (hmX : sX.withMean = fi) {X : Fin n → Fin p → ℝ} {rows : List (Fin n)} {T : Fin p → Prop}
    (h : Determines fi X rows T) : Determines fi (fun i => sX.apply (X i)) rows T := by
  intro d e hd he hz
  have key : ∀ i, affine (fun j => d j / sX.scale j)
      (if fi then e - ∑ j, d j / sX.scale j * sX.mean j else 0) (X i) = affine d e (sX.apply (X i)) := by
    intro i
    unfold affine Scaler.apply
    rw [hmX]
    cases fi with
    | true =>
      simp only [if_true]
      have : ∀ j, d j * ((X i j - sX.mean j) / sX.scale j) =
          d j / sX.scale j * X i j - d j / sX.scale j * sX.mean j := fun j => by ring
      rw [Finset.sum_congr rfl fun j _ => this j, Finset.sum_sub_distrib]
      ring
    | false =>
      simp only [Bool.false_eq_true, if_false, he rfl, add_zero]
      exact Finset.sum_congr rfl fun j _ => by ring
  obtain ⟨h1, h2⟩ := h (fun j => d j / sX.scale j)
    (if fi then e - ∑ j, d j / sX.scale j * sX.mean j else 0)
    (fun j hj => by simp only [hd j hj, zero_div]) (fun hf => by simp [hf])
    (fun i hi => (key i).trans (hz i hi))
  have hd0 : ∀ j, d j = 0 := fun j => by
    have := h1 j
    simpa [hX j] using this
  refine ⟨hd0, ?_⟩
  cases fi with
  | true => simpa [hd0] using h2
  | false => exact he rfl

/-- The intercept fitted to exact data is the true one. -/
theorem linIntercept_exact {n : Nat} (hn : n ≠ 0) {fi : Bool} {X : Fin n → Fin p → ℝ} {y : Fin n → ℝ}
    {beta : Fin p → ℝ} {c : ℝ} (hy : ∀ i, y i = affine beta c (X i)) (hc : fi = false → c = 0) :
    linIntercept fi X y beta = c := by
  unfold linIntercept
  cases fi with
  | false => simp [hc rfl]
  | true =>
    simp only [if_true]
    have hn' : (n : ℝ) ≠ 0 := Nat.cast_ne_zero.mpr hn
    have e : ∑ i, y i = (∑ j, (∑ i, X i j) * beta j) + n * c := by
      rw [Finset.sum_congr rfl fun i _ => hy i]
      simp only [affine, Finset.sum_add_distrib, Finset.sum_const, Finset.card_univ, Fintype.card_fin,
        nsmul_eq_mul]
      rw [Finset.sum_comm]
      congr 1
      exact Finset.sum_congr rfl fun j _ => by
        rw [← Finset.mul_sum, mul_comm]
    rw [e, add_div, mul_div_cancel_left₀ _ hn', Finset.sum_div,
      Finset.sum_congr rfl fun j _ => div_mul_eq_mul_div _ _ _]
    ring

end Verif.Recovery
