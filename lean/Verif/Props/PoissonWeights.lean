import Verif.Lemmas.PoissonWeights
/-!
C139: the coordinate-descent Poisson solver with sample weights and the L-BFGS solver have the same solutions.
-/
namespace Verif.Poisson
open Verif.Py Verif.Spec.Poisson

variable {n p : Nat}

/-- A sweep over all features leaves a point where it is exactly if the point minimises the weighted objective
    `1/n ∑ sw (exp η - y η) + alpha (l1 |b|₁ + (1 - l1)/2 |b|²)`, which is the one of the L-BFGS solver. -/
theorem C139_fixed_iff [NeZero n] (pen : Pen) (hl : 0 ≤ pen.alpha) (h0 : 0 ≤ pen.l1) (h1 : pen.l1 ≤ 1)
    (X : Fin n → Fin p → ℝ) (y sw : Fin n → ℝ) (hsw : ∀ i, 0 ≤ sw i) (hpos : ∃ i, 0 < sw i)
    (hX : ∀ j, (∃ i, 0 < sw i ∧ X i j ≠ 0) ∨ 0 < pen.alpha * (1 - pen.l1)) (coef : Fin p → ℝ) (b : ℝ) :
    cdSweep pen X (weightedResponse X y sw coef b).1 (weightedResponse X y sw coef b).2 (List.finRange p) coef =
        (coef, b) ↔
      (pen.fi = false → b = 0) ∧ ∀ b' coef', (pen.fi = false → b' = 0) →
        enetObj X y sw pen.alpha pen.l1 (fun _ => 1) b coef ≤ enetObj X y sw pen.alpha pen.l1 (fun _ => 1) b' coef' := by
  rw [sweep_fix_iff pen hl h0 h1 X y sw hsw hpos hX]
  constructor
  · rintro ⟨⟨hr, hb⟩, hs⟩
    refine ⟨hb, fun b' coef' hb' => ?_⟩
    have hn : (0 : ℝ) ≤ 1 / n := by positivity
    have hg := enet_gap (X := X) (y := y) (sw := sw) (b := b) (b' := b') (coef := coef) (coef' := coef') hl h1
      (by
        cases hfi : pen.fi with
        | true => rw [hr hfi, mul_zero]
        | false => rw [hb hfi, hb' hfi, sub_zero, zero_mul]) fun j => hs j (coef' j)
    have := mul_nonneg hn (Finset.sum_nonneg fun i (_ : i ∈ Finset.univ) => mul_nonneg (hsw i)
      (curv_nonneg (b + ∑ j, X i j * coef j) (b' + ∑ j, X i j * coef' j)))
    linarith
  · rintro ⟨hb, hm⟩
    exact ⟨⟨fun hfi => resid_of_min fun b' => hm b' coef fun h => absurd h (by simp [hfi]), hb⟩,
      fun j v => slope_of_min hl h0 j (fun coef' => hm b coef' hb) v⟩

/-- Two points that a sweep leaves where they are give the same mean for every sample that has a positive weight. -/
theorem C139_same_predictions [NeZero n] (pen : Pen) (hl : 0 ≤ pen.alpha) (h0 : 0 ≤ pen.l1) (h1 : pen.l1 ≤ 1)
    (X : Fin n → Fin p → ℝ) (y sw : Fin n → ℝ) (hsw : ∀ i, 0 ≤ sw i) (hpos : ∃ i, 0 < sw i)
    (hX : ∀ j, (∃ i, 0 < sw i ∧ X i j ≠ 0) ∨ 0 < pen.alpha * (1 - pen.l1)) (coef coef' : Fin p → ℝ) (b b' : ℝ)
    (h : cdSweep pen X (weightedResponse X y sw coef b).1 (weightedResponse X y sw coef b).2 (List.finRange p) coef =
      (coef, b))
    (h' : cdSweep pen X (weightedResponse X y sw coef' b').1 (weightedResponse X y sw coef' b').2 (List.finRange p)
      coef' = (coef', b')) (i : Fin n) (hi : 0 < sw i) :
    Real.exp (b + ∑ j, X i j * coef j) = Real.exp (b' + ∑ j, X i j * coef' j) := by
  have hm' := (C139_fixed_iff pen hl h0 h1 X y sw hsw hpos hX coef' b').1 h'
  obtain ⟨⟨hr, hb⟩, hs⟩ := (sweep_fix_iff pen hl h0 h1 X y sw hsw hpos hX coef b).1 h
  have hn : (0 : ℝ) < n := by exact_mod_cast Nat.pos_of_ne_zero (NeZero.ne n)
  have hg := enet_gap (X := X) (y := y) (sw := sw) (b := b) (b' := b') (coef := coef) (coef' := coef') hl h1
    (by
      cases hfi : pen.fi with
      | true => rw [hr hfi, mul_zero]
      | false => rw [hb hfi, hm'.1 hfi, sub_zero, zero_mul]) fun j => hs j (coef' j)
  have hle := hm'.2 b coef hb
  by_contra hne
  have hne' : b' + ∑ j, X i j * coef' j ≠ b + ∑ j, X i j * coef j := fun e => hne (by rw [e])
  have : 0 < 1 / (n : ℝ) * ∑ i, sw i * (Real.exp (b' + ∑ j, X i j * coef' j) - Real.exp (b + ∑ j, X i j * coef j) -
      Real.exp (b + ∑ j, X i j * coef j) * (b' + ∑ j, X i j * coef' j - (b + ∑ j, X i j * coef j))) :=
    mul_pos (by positivity) (Finset.sum_pos' (fun i _ => mul_nonneg (hsw i) (curv_nonneg _ _))
      ⟨i, Finset.mem_univ _, mul_pos hi (curv_pos hne')⟩)
  linarith

/-- Rows of weight zero have no influence on what the solver returns. -/
theorem C139_ignored (pen : Pen) (tol : ℝ) (maxIter : Nat) (X X' : Fin n → Fin p → ℝ) (y y' sw : Fin n → ℝ)
    (h : ∀ i, sw i ≠ 0 → X i = X' i ∧ y i = y' i) :
    cdW pen tol maxIter X y (some sw) = cdW pen tol maxIter X' y' (some sw) :=
  cdLoopW_congr (fun l c b => sweep_ignored pen X X' y y' sw h l c b) _ _ _ _

/-- Multiplying the weights and the penalty by the same number changes nothing. -/
theorem C139_scale (pen : Pen) (tol : ℝ) (maxIter : Nat) (X : Fin n → Fin p → ℝ) (y sw : Fin n → ℝ) {s : ℝ}
    (hs : 0 < s) :
    cdW { pen with alpha := s * pen.alpha } tol maxIter X y (some fun i => s * sw i) =
      cdW pen tol maxIter X y (some sw) :=
  cdLoopW_congr (fun l c b => sweep_scale pen hs X y sw l c b) _ _ _ _

/-- No weights are unit weights. -/
theorem C139_none (pen : Pen) (tol : ℝ) (maxIter : Nat) (X : Fin n → Fin p → ℝ) (y : Fin n → ℝ) :
    cdW pen tol maxIter X y none = cdW pen tol maxIter X y (some fun _ => 1) ∧
      ∀ coef0 b0, cdW pen tol maxIter X y none = cd pen tol maxIter false coef0 b0 X y :=
  ⟨rfl, fun coef0 b0 => by
    simp only [cdW, cd, Option.getD_none, if_false, Bool.false_eq_true]
    exact cdLoopW_one pen tol X y _ _ _ _⟩

/-- Two samples of weights 1 and 3, responses 4 and 0 at the same value of the feature: the weighted mean is one, so
    zero coefficients are left where they are, and they minimise the objective; without the weights they do not. -/
example :
    cdSweep ⟨1, 1, true⟩ (![![1], ![1]] : Fin 2 → Fin 1 → ℝ)
      (weightedResponse ![![1], ![1]] ![4, 0] ![1, 3] (fun _ => 0) 0).1
      (weightedResponse ![![1], ![1]] ![4, 0] ![1, 3] (fun _ => 0) 0).2 (List.finRange 1) (fun _ => 0) =
      (fun _ => 0, 0) ∧
    ¬ cdSweep ⟨1, 1, true⟩ (![![1], ![1]] : Fin 2 → Fin 1 → ℝ)
      (weightedResponse ![![1], ![1]] ![4, 0] ![1, 1] (fun _ => 0) 0).1
      (weightedResponse ![![1], ![1]] ![4, 0] ![1, 1] (fun _ => 0) 0).2 (List.finRange 1) (fun _ => 0) =
      (fun _ => 0, 0) ∧
    ∀ b' (coef' : Fin 1 → ℝ),
      enetObj (![![1], ![1]] : Fin 2 → Fin 1 → ℝ) ![4, 0] ![1, 3] 1 1 (fun _ => 1) 0 (fun _ => 0) ≤
        enetObj ![![1], ![1]] ![4, 0] ![1, 3] 1 1 (fun _ => 1) b' coef' := by
  have hfix : cdSweep ⟨1, 1, true⟩ (![![1], ![1]] : Fin 2 → Fin 1 → ℝ)
      (weightedResponse ![![1], ![1]] ![4, 0] ![1, 3] (fun _ => 0) 0).1
      (weightedResponse ![![1], ![1]] ![4, 0] ![1, 3] (fun _ => 0) 0).2 (List.finRange 1) (fun _ => 0) =
      (fun _ => 0, 0) := by
    rw [sweep_fix_iff ⟨1, 1, true⟩ (by norm_num) (by norm_num) (by norm_num) _ _ _
      (by intro i; fin_cases i <;> norm_num) ⟨0, by norm_num⟩ (fun j => Or.inl ⟨0, by norm_num, by fin_cases j; norm_num⟩)]
    refine ⟨⟨fun _ => by norm_num [Fin.sum_univ_two], fun h => by cases h⟩, fun j v => ?_⟩
    fin_cases j
    simp [slope, Fin.sum_univ_two]
    norm_num
  refine ⟨hfix, ?_, fun b' coef' => ?_⟩
  · intro h
    have := congrArg Prod.snd h
    simp [cdSweep, cdIntercept, weightedResponse, adjustedResponse, dot, Fin.sum_univ_two] at this
    norm_num at this
  · exact ((C139_fixed_iff ⟨1, 1, true⟩ (by norm_num) (by norm_num) (by norm_num) _ _ _
      (by intro i; fin_cases i <;> norm_num) ⟨0, by norm_num⟩
      (fun j => Or.inl ⟨0, by norm_num, by fin_cases j; norm_num⟩) _ _).1 hfix).2 b' coef' (by simp)

/-- A row of weight zero with an absurd response. -/
example (pen : Pen) (tol : ℝ) (k : Nat) :
    cdW pen tol k (![![1], ![2], ![1]] : Fin 3 → Fin 1 → ℝ) ![4, 0, 1000] (some ![1, 3, 0]) =
      cdW pen tol k ![![1], ![2], ![-7]] ![4, 0, 2] (some ![1, 3, 0]) :=
  C139_ignored pen tol k _ _ _ _ _ fun i hi => by fin_cases i <;> simp_all

end Verif.Poisson
