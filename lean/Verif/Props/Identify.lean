import Mathlib.Tactic.FinCases
import Verif.Lemmas.Identify
import Verif.Props.LogisticMin
/-!
Whether the training samples determine the coefficients of a classifier.
-/
namespace Verif.Props
open Verif.Logistic Verif.Spec.LogisticMin Verif.Spec.Identify Verif.Lemmas.Identify

variable {n p k : Nat}

/-- **C149**, two classes: if no feature of the support is a combination of the others (and of a constant),
    any two solutions of the estimation fit have the same coefficients and the same intercept. -/
theorem C149_binary {fi : Bool} {S : Fin p → Bool} {X : Fin n → Fin p → ℝ} {y : Fin n → ℝ}
    (hy : ∀ i, y i ≠ 0) (hX : Independent fi S X) {u v : (Fin p → ℝ) × ℝ}
    (hu : ∀ x, binTarget none fi S X y u ≤ binTarget none fi S X y x)
    (hv : ∀ x, binTarget none fi S X y v ≤ binTarget none fi S X y x) :
    (∀ j, S j = true → u.1 j = v.1 j) ∧ (fi = true → u.2 = v.2) := by
  have h := bin_margin_unique hu hv
  obtain ⟨h1, h2⟩ := hX _ _ (within_sub (within_masked fi S u) (within_masked fi S v)) (fun i => by
    have := congrFun h i
    rw [binMargin_masked, binMargin_masked] at this
    rw [score_sub, mul_left_cancel₀ (hy i) this, sub_self])
  refine ⟨fun j hj => ?_, fun hf => ?_⟩
  · have := congrFun h1 j
    simpa [maskedW, hj, sub_eq_zero] using this
  · simpa [hf, sub_eq_zero] using h2

/-- A single feature that is not constant tells itself apart from the intercept. -/
example : Independent true (fun _ => true) (![![1], ![2]] : Fin 2 → Fin 1 → ℝ) := by
  intro d e _ h
  have h0 := h 0
  have h1 := h 1
  simp [score] at h0 h1
  have hd : d 0 = 0 := by linarith
  refine ⟨funext fun j => ?_, by linarith⟩
  fin_cases j
  exact hd

/-- **C149**, several classes: adding the same number to the coefficients of a feature in all classes (or to
    all intercepts) gives another solution of the estimation fit. -/
theorem C149_shift {fi : Bool} {S : Fin k → Fin p → Bool} {X : Fin n → Fin p → ℝ} {y : Fin n → Fin k}
    {u : (Fin k → Fin p → ℝ) × (Fin k → ℝ)}
    (hu : ∀ x, multiTarget none fi S X y u ≤ multiTarget none fi S X y x) (t : Fin p → ℝ) (s : ℝ)
    (ht : ∀ j, t j ≠ 0 → ∀ c, S c j = true) (x : (Fin k → Fin p → ℝ) × (Fin k → ℝ)) :
    multiTarget none fi S X y (fun c j => u.1 c j + t j, fun c => u.2 c + s) ≤
      multiTarget none fi S X y x := by
  refine le_trans (le_of_eq ?_) (hu x)
  rw [multiTarget_eq, multiTarget_eq]
  simp only [invC, mul_zero, zero_mul, add_zero]
  congr 1
  have e : ((fun c j => u.1 c j + t j, fun c => u.2 c + s) : (Fin k → Fin p → ℝ) × (Fin k → ℝ)) =
      u + (fun _ => t, fun _ => s) := rfl
  rw [e, map_add, margin_shift fi S X y t s ht, add_zero]

/-- **C149** is false of several classes: three samples of one feature, one of each class.  There are
    solutions with different coefficients. -/
theorem C149_negation : ∃ u v : (Fin 3 → Fin 1 → ℝ) × (Fin 3 → ℝ),
    (∀ x : (Fin 3 → Fin 1 → ℝ) × (Fin 3 → ℝ), multiTarget none false (fun _ _ => true) (fun _ _ => 1 : Fin 3 → Fin 1 → ℝ)
        (![0, 1, 2] : Fin 3 → Fin 3) u ≤
      multiTarget none false (fun _ _ => true) (fun _ _ => 1) ![0, 1, 2] x) ∧
    (∀ x : (Fin 3 → Fin 1 → ℝ) × (Fin 3 → ℝ), multiTarget none false (fun _ _ => true) (fun _ _ => 1 : Fin 3 → Fin 1 → ℝ)
        (![0, 1, 2] : Fin 3 → Fin 3) v ≤
      multiTarget none false (fun _ _ => true) (fun _ _ => 1) ![0, 1, 2] x) ∧
    ∀ c, v.1 c 0 = u.1 c 0 + 1 := by
  have hsep : ¬ SeparableM false (fun _ _ => true) (fun _ _ => 1 : Fin 3 → Fin 1 → ℝ)
      (![0, 1, 2] : Fin 3 → Fin 3) := by
    rintro ⟨d, e, -, hall, i, c, hi⟩
    have a := hall c (![0, 1, 2] i)
    have hc : (![0, 1, 2] : Fin 3 → Fin 3) c = c := by fin_cases c <;> rfl
    rw [hc] at a
    exact absurd hi (not_lt.mpr a)
  obtain ⟨u, hu⟩ := (C130_multi_partial _ _ _ _).2 hsep
  exact ⟨u, (fun c j => u.1 c j + 1, fun c => u.2 c + 0), hu,
    C149_shift hu (fun _ => 1) 0 (fun _ _ _ => rfl), fun _ => rfl⟩

/-- **C149**, several classes: if the features in use are independent, any two solutions of the estimation
    fit differ by the same vector in all classes, which is zero for the features that some class does not
    use. -/
theorem C149_classes {fi : Bool} {S : Fin k → Fin p → Bool} {X : Fin n → Fin p → ℝ} {y : Fin n → Fin k}
    {U : Fin p → Bool} (hU : ∀ c j, S c j = true → U j = true) (hX : Independent fi U X)
    {u v : (Fin k → Fin p → ℝ) × (Fin k → ℝ)}
    (hu : ∀ x, multiTarget none fi S X y u ≤ multiTarget none fi S X y x)
    (hv : ∀ x, multiTarget none fi S X y v ≤ multiTarget none fi S X y x) :
    ∃ (t : Fin p → ℝ) (s : ℝ), (∀ c j, S c j = true → u.1 c j = v.1 c j + t j) ∧
      (fi = true → ∀ c, u.2 c = v.2 c + s) ∧ ∀ c j, S c j = false → t j = 0 := by
  have h := multi_margin_unique (by simp) hu hv
  rcases Nat.eq_zero_or_pos k with rfl | hk
  · exact ⟨0, 0, fun c => c.elim0, fun _ c => c.elim0, fun c => c.elim0⟩
  refine ⟨maskedW (S ⟨0, hk⟩) (u.1 ⟨0, hk⟩) - maskedW (S ⟨0, hk⟩) (v.1 ⟨0, hk⟩),
    (if fi then u.2 ⟨0, hk⟩ else 0) - (if fi then v.2 ⟨0, hk⟩ else 0), fun c j hj => ?_, fun hf c => ?_,
    fun c j hj => ?_⟩
  · rw [← (diff_same hU hX h c ⟨0, hk⟩).1]
    simp [maskedW, hj]
  · rw [← (diff_same hU hX h c ⟨0, hk⟩).2]
    simp [hf]
  · rw [← (diff_same hU hX h c ⟨0, hk⟩).1]
    simp [maskedW, hj]

/-- The samples of `C149_negation`. -/
example : Independent false (fun _ => true) (fun _ _ => 1 : Fin 3 → Fin 1 → ℝ) := by
  intro d e hw h
  have h0 := h 0
  have he := hw.2 rfl
  simp [score, he] at h0
  refine ⟨funext fun j => ?_, he⟩
  fin_cases j
  exact h0

/-- **C149** for several classes (partial): an optimiser that moves along gradients keeps, for every feature
    used by all classes, the sum of the coefficients over the classes, and the sum of the intercepts.  So any
    two such optimisers with the same starting vector that find a solution find the same one.  Missing:
    different starting vectors, which give different solutions (`C149_warm`). -/
theorem C149_partial [NeZero k] {fi : Bool} {S : Fin k → Fin p → Bool} {X : Fin n → Fin p → ℝ}
    {y : Fin n → Fin k} {U : Fin p → Bool} (hU : ∀ c j, S c j = true → U j = true)
    (hX : Independent fi U X) {x0 u v : (Fin k → Fin p → ℝ) × (Fin k → ℝ)}
    (hu : ∀ x, multiTarget none fi S X y u ≤ multiTarget none fi S X y x)
    (hv : ∀ x, multiTarget none fi S X y v ≤ multiTarget none fi S X y x)
    (su : u - x0 ∈ Submodule.span ℝ (Set.range (multiTargetGrad none fi S X y)))
    (sv : v - x0 ∈ Submodule.span ℝ (Set.range (multiTargetGrad none fi S X y))) : u = v := by
  obtain ⟨t, s, h1, h2, h3⟩ := C149_classes hU hX hu hv
  have hk : (k : ℝ) ≠ 0 := Nat.cast_ne_zero.mpr (NeZero.ne k)
  have hspan : u - v ∈ Submodule.span ℝ (Set.range (multiTargetGrad none fi S X y)) := by
    have := Submodule.sub_mem _ su sv
    rwa [sub_sub_sub_cancel_right] at this
  have hd := span_sum hspan
  have ho := span_fixed hspan
  refine Prod.ext (funext fun c => funext fun j => ?_) ?_
  · by_cases hj : S c j = true
    case neg => exact sub_eq_zero.mp (ho.1 c j (by simpa using hj))
    rw [h1 c j hj]
    by_cases hall : ∀ c, S c j = true
    · have := hd.1 j hall
      have e : ∀ c, (u - v).1 c j = t j := fun c => by
        show u.1 c j - v.1 c j = t j
        rw [h1 c j (hall c)]
        ring
      simp only [e, Finset.sum_const, Finset.card_univ, Fintype.card_fin, nsmul_eq_mul] at this
      rw [(mul_eq_zero.mp this).resolve_left hk, add_zero]
    · push Not at hall
      obtain ⟨c', hc'⟩ := hall
      rw [h3 c' j (by simpa using hc'), add_zero]
  · by_cases hf : fi = true
    case neg => exact funext fun c => sub_eq_zero.mp (ho.2 (by simpa using hf) c)
    have e : ∀ c, (u - v).2 c = s := fun c => by
      show u.2 c - v.2 c = s
      rw [h2 hf c]
      ring
    have := hd.2
    simp only [e, Finset.sum_const, Finset.card_univ, Fintype.card_fin, nsmul_eq_mul] at this
    funext c
    rw [h2 hf c, (mul_eq_zero.mp this).resolve_left hk, add_zero]

/-- The samples of `C149_negation`: a solution that is reached. -/
example : ∃ x0 u : (Fin 3 → Fin 1 → ℝ) × (Fin 3 → ℝ),
    (∀ x : (Fin 3 → Fin 1 → ℝ) × (Fin 3 → ℝ), multiTarget none false (fun _ _ => true)
        (fun _ _ => 1 : Fin 3 → Fin 1 → ℝ) (![0, 1, 2] : Fin 3 → Fin 3) u ≤
      multiTarget none false (fun _ _ => true) (fun _ _ => 1) ![0, 1, 2] x) ∧
    u - x0 ∈ Submodule.span ℝ (Set.range (multiTargetGrad none false (fun _ _ => true)
      (fun _ _ => 1 : Fin 3 → Fin 1 → ℝ) (![0, 1, 2] : Fin 3 → Fin 3))) := by
  obtain ⟨u, v, hu, -, h⟩ := C149_negation
  exact ⟨u, u, hu, by rw [sub_self]; exact Submodule.zero_mem _⟩

/-- The sums over the classes at the end are those at the start.  Without starting coefficients they are
    zero for every feature if intercepts are fitted; without intercepts the coefficients of the last feature
    sum to the sum of the class intercepts. -/
theorem C149_start (a : PathArgs) (hm : a.multi = true) (hw : a.warm = none) (hmask : a.mask = none)
    [NeZero a.k] (X : Fin n → Fin a.p → ℝ) (y : Fin n → Fin a.k)
    {u : (Fin a.k → Fin a.p → ℝ) × (Fin a.k → ℝ)}
    (su : u - startSplit a ∈ Submodule.span ℝ (Set.range (multiTargetGrad none a.fi (fun _ _ => true) X y))) :
    (∀ j : Fin a.p, ∑ c, u.1 c j = if a.fi = false ∧ j.val + 1 = a.p then ∑ c : Fin a.k, a.init c else 0) ∧
    (a.fi = true → ∑ c, u.2 c = ∑ c : Fin a.k, a.init c) := by
  have hd := span_sum su
  constructor
  · intro j
    have h := hd.1 j (fun _ => rfl)
    have e : ∀ c, (u - startSplit a).1 c j = u.1 c j - startPoint a c j := fun _ => rfl
    simp only [e, Finset.sum_sub_distrib] at h
    rw [sub_eq_zero.mp h]
    have hj := j.isLt
    cases hf : a.fi with
    | true =>
      have : ¬ (j.val + 1 = a.p + 1) := by omega
      simp [startPoint, hm, hw, hmask, PathArgs.cols, hf]
      intro h
      omega
    | false =>
      simp only [startPoint, hm, hw, hmask, PathArgs.cols, hf]
      by_cases hjp : j.val + 1 = a.p <;> simp [hjp]
  · intro hf
    have h := hd.2
    have e : ∀ c, (u - startSplit a).2 c = u.2 c - startPoint a c a.p := fun c => by
      show u.2 c - (if a.fi then startPoint a c a.p else 0) = _
      simp [hf]
    simp only [e, Finset.sum_sub_distrib] at h
    rw [sub_eq_zero.mp h]
    simp [startPoint, hm, hw, hmask, PathArgs.cols, hf]

/-- Three classes, two features, no intercept: the coefficients of the last feature start, and so end, with
    the sum of the class intercepts. -/
example : ∃ u : (Fin 3 → Fin 2 → ℝ) × (Fin 3 → ℝ),
    u - startSplit ⟨true, false, false, 3, 2, none, none, fun c => -(c : ℝ)⟩ ∈
      Submodule.span ℝ (Set.range (multiTargetGrad none false (fun _ _ => true)
        (fun _ _ => 1 : Fin 3 → Fin 2 → ℝ) (![0, 1, 2] : Fin 3 → Fin 3))) ∧
    ∑ c, u.1 c 0 = 0 ∧ ∑ c, u.1 c 1 = -3 := by
  refine ⟨startSplit ⟨true, false, false, 3, 2, none, none, fun c => -(c : ℝ)⟩,
    by rw [sub_self]; exact Submodule.zero_mem _, ?_, ?_⟩ <;>
    norm_num [startSplit, startPoint, PathArgs.cols, Fin.sum_univ_three]

/-- Starting coefficients (`warm_start`) with different sums over the classes give different coefficients,
    whether or not solutions are found. -/
theorem C149_warm [NeZero k] {fi : Bool} {S : Fin k → Fin p → Bool} {X : Fin n → Fin p → ℝ}
    {y : Fin n → Fin k} {x0 x1 u v : (Fin k → Fin p → ℝ) × (Fin k → ℝ)} {j : Fin p}
    (hj : ∀ c, S c j = true) (h01 : ∑ c, x0.1 c j ≠ ∑ c, x1.1 c j)
    (su : u - x0 ∈ Submodule.span ℝ (Set.range (multiTargetGrad none fi S X y)))
    (sv : v - x1 ∈ Submodule.span ℝ (Set.range (multiTargetGrad none fi S X y))) :
    ∃ c, u.1 c j ≠ v.1 c j := by
  by_contra hall
  push Not at hall
  have a := (span_sum su).1 j hj
  have b := (span_sum sv).1 j hj
  have ea : ∀ c, (u - x0).1 c j = u.1 c j - x0.1 c j := fun _ => rfl
  have eb : ∀ c, (v - x1).1 c j = v.1 c j - x1.1 c j := fun _ => rfl
  simp only [ea, eb, Finset.sum_sub_distrib, hall] at a b
  exact h01 (by linarith)

/-- The samples of `C149_negation`: two starting vectors with different sums, from both of which a solution
    is reached. -/
example : ∃ x0 x1 u v : (Fin 3 → Fin 1 → ℝ) × (Fin 3 → ℝ), ∑ c, x0.1 c 0 ≠ ∑ c, x1.1 c 0 ∧
    u - x0 ∈ Submodule.span ℝ (Set.range (multiTargetGrad none false (fun _ _ => true)
      (fun _ _ => 1 : Fin 3 → Fin 1 → ℝ) (![0, 1, 2] : Fin 3 → Fin 3))) ∧
    v - x1 ∈ Submodule.span ℝ (Set.range (multiTargetGrad none false (fun _ _ => true)
      (fun _ _ => 1 : Fin 3 → Fin 1 → ℝ) (![0, 1, 2] : Fin 3 → Fin 3))) := by
  obtain ⟨u, v, -, -, h⟩ := C149_negation
  refine ⟨u, v, u, v, ?_, by rw [sub_self]; exact Submodule.zero_mem _,
    by rw [sub_self]; exact Submodule.zero_mem _⟩
  simp only [h, Finset.sum_add_distrib]
  norm_num

/-- With a finite `C` the coefficients of several classes are determined, the intercepts up to a common
    number, and the coefficients of a feature used by all classes sum to zero. -/
theorem C149_penalised {C : ℝ} (hC : 0 < C) {fi : Bool} {S : Fin k → Fin p → Bool}
    {X : Fin n → Fin p → ℝ} {y : Fin n → Fin k} (hn : n ≠ 0)
    {u : (Fin k → Fin p → ℝ) × (Fin k → ℝ)}
    (hu : ∀ x, multiTarget (some C) fi S X y u ≤ multiTarget (some C) fi S X y x) :
    (∀ v, (∀ x, multiTarget (some C) fi S X y v ≤ multiTarget (some C) fi S X y x) →
      (∀ c j, S c j = true → u.1 c j = v.1 c j) ∧
      (fi = true → ∃ s, ∀ c, u.2 c = v.2 c + s)) ∧
    ∀ j, (∀ c, S c j = true) → ∑ c, u.1 c j = 0 := by
  have hC' : ∀ r, some C = some r → 0 < r := fun r h => by cases h; exact hC
  constructor
  · intro v hv
    have h1 := (C130_multi_unique fi S X y hC' hu hv).2 (by simp)
    refine ⟨fun c j hj => ?_, fun hf => ?_⟩
    · have := congrFun (h1 c) j
      simpa [maskedW, hj] using this
    · have i0 : Fin n := ⟨0, Nat.pos_of_ne_zero hn⟩
      have h := multi_margin_unique hC' hu hv
      refine ⟨u.2 (y i0) - v.2 (y i0), fun c => ?_⟩
      have := congrFun h (i0, c)
      rw [multiMargin_score, multiMargin_score] at this
      simp only [h1, score, hf, if_true] at this
      linarith
  · intro j hj
    have hk : k = 0 ∨ (0 : ℝ) < k := (Nat.eq_zero_or_pos k).imp id fun h => by exact_mod_cast h
    rcases hk with rfl | hk
    · simp
    have hM : ∀ t : ℝ, ∀ q : Fin k × Fin p,
        maskedLM S (u + t • (fun _ j' => if j' = j then 1 else 0, fun _ => 0)) q =
          maskedLM S u q + t * if q.2 = j then 1 else 0 := by
      intro t q
      rw [map_add, map_smul]
      simp only [Pi.add_apply, Pi.smul_apply, smul_eq_mul, maskedLM, LinearMap.coe_mk, AddHom.coe_mk,
        maskedW]
      by_cases hq : q.2 = j
      · simp [hq, hj]
      · simp [hq]
    have hq : ∀ t : ℝ, 0 ≤ 2 * t * (∑ c, u.1 c j) + t ^ 2 * k := by
      intro t
      have h := hu (u + t • (fun _ j' => if j' = j then 1 else 0, fun _ => 0))
      rw [multiTarget_eq, multiTarget_eq, map_add, map_smul,
        margin_shift fi S X y _ 0 (fun j' h c => by
          have : j' = j := by
            by_contra hne
            simp [hne] at h
          rw [this]
          exact hj c), smul_zero, add_zero] at h
      simp only [hM, invC] at h
      have e : ∑ q : Fin k × Fin p, (maskedLM S u q + t * if q.2 = j then 1 else 0) *
          (maskedLM S u q + t * if q.2 = j then 1 else 0) =
          ∑ q : Fin k × Fin p, maskedLM S u q * maskedLM S u q +
            (2 * t * (∑ c, u.1 c j) + t ^ 2 * k) := by
        have e1 : ∀ q : Fin k × Fin p, (maskedLM S u q + t * if q.2 = j then 1 else 0) *
            (maskedLM S u q + t * if q.2 = j then 1 else 0) = maskedLM S u q * maskedLM S u q +
            if q.2 = j then 2 * t * maskedLM S u q + t ^ 2 else 0 := fun q => by
          split_ifs <;> ring
        simp only [e1, Finset.sum_add_distrib]
        congr 1
        rw [Fintype.sum_prod_type]
        simp only [Finset.sum_ite_eq', Finset.mem_univ, if_true, Finset.sum_add_distrib, ← Finset.mul_sum,
          Finset.sum_const, Finset.card_univ, Fintype.card_fin, nsmul_eq_mul]
        simp only [maskedLM, LinearMap.coe_mk, AddHom.coe_mk, maskedW, hj, if_true]
        ring
      rw [e] at h
      have hc : 0 < 1 / 2 * (1 / C) := by positivity
      by_contra hneg
      push Not at hneg
      have := mul_neg_of_pos_of_neg hc hneg
      rw [mul_add] at h
      linarith
    have h := hq (-(∑ c, u.1 c j) / k)
    have e : 2 * (-(∑ c, u.1 c j) / k) * (∑ c, u.1 c j) + (-(∑ c, u.1 c j) / k) ^ 2 * (k : ℝ) =
        -((∑ c, u.1 c j) ^ 2 / k) := by
      field_simp
      ring
    rw [e] at h
    have h0 : (∑ c, u.1 c j) ^ 2 / k ≤ 0 := by linarith
    have h1 : (∑ c, u.1 c j) ^ 2 ≤ 0 := by
      by_contra hp
      push Not at hp
      exact absurd h0 (not_le.mpr (div_pos hp hk))
    exact pow_eq_zero_iff (two_ne_zero) |>.mp (le_antisymm h1 (sq_nonneg _))

/-- Three classes with a penalty: the coefficients of every solution sum to zero. -/
example : ∃ u : (Fin 3 → Fin 2 → ℝ) × (Fin 3 → ℝ),
    (∀ x : (Fin 3 → Fin 2 → ℝ) × (Fin 3 → ℝ),
      multiTarget (some 1) true (fun _ _ => true) (![![1, 0], ![0, 1], ![-1, -1]])
        (![0, 1, 2] : Fin 3 → Fin 3) u ≤
      multiTarget (some 1) true (fun _ _ => true) (![![1, 0], ![0, 1], ![-1, -1]]) ![0, 1, 2] x) ∧
    ∀ j, ∑ c, u.1 c j = 0 := by
  obtain ⟨u, hu⟩ := C130_multi_penalised one_pos true (fun _ _ => true)
    (![![1, 0], ![0, 1], ![-1, -1]] : Fin 3 → Fin 2 → ℝ) (![0, 1, 2] : Fin 3 → Fin 3)
    fun _ c => ⟨c, by fin_cases c <;> rfl⟩
  exact ⟨u, hu, fun j => (C149_penalised one_pos (by norm_num) hu).2 j fun _ => rfl⟩

end Verif.Props
