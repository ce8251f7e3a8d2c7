import Verif.Lemmas.Labels
import Verif.Lemmas.MaskedFit
/-!
C122, C123: standardised and repeated fits of `MaskedCoefLogisticRegression`.
-/
namespace Verif.MaskedFit
open Verif.Py Verif.Labels Verif.Spec.MaskedFit

variable {L K : Type}

/-! ### C122: standardised features -/

/-- C122, without standardisation: the decision values of the fitted object are those of the parameters
    that the optimisation returned. -/
theorem C122_plain [LinearOrder L] [LinearOrder K] [Field K] {s : Settings K} (hs : s.standardize = false)
    {out : Outside K} {o o' : Obj L K} {X : List (List K)} {y : List L} {mask : Option (List (List K))}
    (h : fit s out o X y mask = (o', .ok ())) :
    ∃ c rows W, c.X = X ∧ out.optimise c = .ok W ∧
      maskedRows s.multinomial (uniq (encode y)).length = .ok rows ∧
      ∀ x, Shaped s rows x.length W → o'.decision x = .ok (W.map fun r => value s.fi r x) := by
  obtain ⟨c, rows, W, -, hX, -, hr, -, hW, hc, hi⟩ := fit_ok h
  refine ⟨c, rows, W, by rw [hX, seen, hs]; rfl, hW, hr, fun x hx => ?_⟩
  rw [stored_decision (m := []) hc hi hx (by simp [hs]) (by simp [hs])]
  have hl : (storedCoef s (out.scaler X).2 W).length = W.length := by
    unfold storedCoef; split_ifs <;> simp
  congr 1
  refine List.ext_getElem (by simp [hl]) fun i h1 h2 => ?_
  simp [hs]

/-- C122, with standardisation: the optimisation works on the standardised rows, but the decision values
    of the fitted object at a row differ from those at the standardised row by the inner product of
    `coef_` with the means of the features.  Missing: equality, which is false (`C122_negation`) unless that
    product is zero; `_post_fit` does not correct the intercept. -/
theorem C122_standardized_partial [LinearOrder L] [LinearOrder K] [Field K] {s : Settings K}
    (hs : s.standardize = true) {out : Outside K} {o o' : Obj L K} {X : List (List K)} {y : List L}
    {mask : Option (List (List K))} (h : fit s out o X y mask = (o', .ok ())) :
    ∃ c rows W coef, c.X = X.map (standard (out.scaler X)) ∧ out.optimise c = .ok W ∧
      maskedRows s.multinomial (uniq (encode y)).length = .ok rows ∧ o'.coef = some coef ∧
      ∀ x, Shaped s rows x.length W → (out.scaler X).1.length = x.length →
        (out.scaler X).2.length = x.length →
        o'.decision x = .ok (List.zipWith (fun r w => value s.fi r (standard (out.scaler X) x) +
          inner (out.scaler X).1 w) W coef) ∧
        ((∀ w ∈ coef, inner (out.scaler X).1 w = 0) →
          o'.decision x = .ok (W.map fun r => value s.fi r (standard (out.scaler X) x))) := by
  obtain ⟨c, rows, W, -, hX, -, hr, -, hW, hc, hi⟩ := fit_ok h
  refine ⟨c, rows, W, _, by rw [hX, seen, hs]; rfl, hW, hr, hc, fun x hx h1 h2 => ?_⟩
  have key := stored_decision (m := (out.scaler X).1) hc hi hx (fun _ => h1) (fun _ => h2)
  simp only [hs, if_true] at key
  refine ⟨key, fun hz => ?_⟩
  rw [key]
  have hl : (storedCoef s (out.scaler X).2 W).length = W.length := by
    unfold storedCoef; split_ifs <;> simp
  congr 1
  refine List.ext_getElem (by simp [hl]) fun i h3 h4 => ?_
  simp only [List.getElem_zipWith, List.getElem_map]
  rw [hz _ (List.getElem_mem _), add_zero]

/-- C122, units: adding constants to the features changes neither `coef_` nor `intercept_`, although the
    decision values at correspondingly changed rows then differ. -/
theorem C122_shift [LinearOrder L] [LinearOrder K] [Field K] {s : Settings K} (hs : s.standardize = true)
    {out : Outside K} {o : Obj L K} {X X' : List (List K)} {y : List L} {mask : Option (List (List K))}
    (t : List K) (hX : X' = X.map fun x => List.zipWith (· + ·) x t)
    (hsc : out.scaler X' = (List.zipWith (· + ·) (out.scaler X).1 t, (out.scaler X).2))
    (ht : ∀ x ∈ X, x.length = t.length) (hm : (out.scaler X).1.length = t.length) :
    (fit s out o X' y mask).1.coef = (fit s out o X y mask).1.coef ∧
      (fit s out o X' y mask).1.intercept = (fit s out o X y mask).1.intercept ∧
      (fit s out o X' y mask).2 = (fit s out o X y mask).2 := by
  have key : ∀ (x m t sc : List K), x.length = t.length → m.length = t.length →
      standard (List.zipWith (· + ·) m t, sc) (List.zipWith (· + ·) x t) = standard (m, sc) x := by
    intro x m t sc h1 h2
    unfold standard
    congr 1
    simp only
    induction t generalizing x m with
    | nil =>
      rw [List.eq_nil_of_length_eq_zero h1]
      simp
    | cons a t ih =>
      rcases x with _ | ⟨b, x⟩
      · simp at h1
      rcases m with _ | ⟨c, m⟩
      · simp at h2
      simp only [List.zipWith_cons_cons]
      rw [ih x m (by simpa using h1) (by simpa using h2)]
      congr 1
      ring
  have hX1 : X'.map (standard (out.scaler X')) = X.map (standard (out.scaler X)) := by
    rw [hsc, hX, List.map_map]
    refine List.map_congr_left fun x hx => ?_
    exact key x _ t _ (ht x hx) hm
  have h2 : (out.scaler X').2 = (out.scaler X).2 := by rw [hsc]
  unfold fit
  simp only [hs, if_true, hX1, h2]
  cases validate s with
  | error e => exact ⟨rfl, rfl, rfl⟩
  | ok v =>
    simp only
    split
    · exact ⟨rfl, rfl, rfl⟩
    split
    · exact ⟨rfl, rfl, rfl⟩
    split
    · exact ⟨rfl, rfl, rfl⟩
    simp only [warmCoef]
    split
    · exact ⟨rfl, rfl, rfl⟩
    split
    · exact ⟨rfl, rfl, rfl⟩
    exact ⟨rfl, rfl, rfl⟩

/-- C122, warm start without standardisation: a second fit starts at the solution of the first. -/
theorem C122_warm_partial [LinearOrder L] [LinearOrder K] [Field K] {s : Settings K}
    (hs : s.standardize = false) (hw : s.warmStart = true) (hf : s.fi = true) {out out' : Outside K}
    {o o' o'' : Obj L K} {X X' : List (List K)} {y y' : List L} {mask mask' : Option (List (List K))}
    (h : fit s out o X y mask = (o', .ok ())) (h' : fit s out' o' X' y' mask' = (o'', .ok ())) :
    ∃ c W c' W', out.optimise c = .ok W ∧ out'.optimise c' = .ok W' ∧ c'.X = X' ∧
      ((∀ r ∈ W, r ≠ []) → c'.start = some W) := by
  obtain ⟨c, rows, W, -, -, -, -, -, hW, hc, hi⟩ := fit_ok h
  obtain ⟨c', rows', W', -, hX', -, -, hst, hW', -⟩ := fit_ok h'
  refine ⟨c, W, c', W', hW, hW', by rw [hX', seen, hs]; rfl, fun hne => ?_⟩
  unfold warmCoef at hst
  have e1 : storedCoef s (out.scaler X).2 W = W.map List.dropLast := by simp [storedCoef, hs, hf]
  have e2 : storedIntercept s rows W = W.map (·.getLastD 0) := by simp [storedIntercept, hf]
  rw [hw, if_pos rfl, hc, hf, hi, e1, e2] at hst
  simp only [if_true, List.length_map, zipWith_map_both] at hst
  injection hst with hst
  rw [← hst]
  congr 1
  conv_rhs => rw [← List.map_id W]
  refine List.map_congr_left fun r hr => ?_
  rw [List.getLastD_eq_getLast?, List.getLast?_eq_some_getLast (hne r hr)]
  exact List.dropLast_append_getLast (hne r hr)

/-! ### Examples -/

/-- Default settings with a warm start; the flag says whether features are standardised. -/
def demoS (std : Bool) : Settings ℚ := ⟨some 1, some 100, some (1 / 1000), true, std, false, true⟩

/-- One feature with the values 0 and 4 (mean 2, standard deviation 2); an optimisation that starts from
    nothing ends in coefficient 6 and intercept 1, and one that is given a start keeps it. -/
def demoOut : Outside ℚ where
  scaler _ := ([2], [2])
  check _ _ := .ok ()
  optimise c := match c.start with
    | none => .ok [[6, 1]]
    | some w => .ok w

def demoX : List (List ℚ) := [[0], [4]]
def demoY : List ℕ := [7, 9]

theorem demoY_enc : encode demoY = [0, 1] := by decide +kernel

example : fit (demoS false) demoOut .fresh demoX demoY none =
      (⟨none, some (.inr [0, 1]), some 1, some [[6]], some [1]⟩, .ok ()) ∧
    Shaped (demoS false) 1 1 [[6, 1]] := by
  refine ⟨by decide +kernel, rfl, ?_⟩
  intro r hr
  rw [List.mem_singleton.1 hr]; rfl

example : fit (demoS true) demoOut .fresh demoX demoY none =
      (⟨some ([2], [2]), some (.inr [0, 1]), some 1, some [[3]], some [1]⟩, .ok ()) := by decide +kernel

/-- Adding 10 to the feature. -/
def demoOutShift : Outside ℚ :=
  { demoOut with scaler := fun X => if X = demoX then ([2], [2]) else ([12], [2]) }

example : (fit (demoS true) demoOutShift (.fresh : Obj ℕ ℚ) [[10], [14]] demoY none).1.coef = some [[3]] ∧
    (fit (demoS true) demoOutShift (.fresh : Obj ℕ ℚ) demoX demoY none).1.coef = some [[3]] ∧
    [[10], [14]] = demoX.map (fun x => List.zipWith (· + ·) x [10]) ∧
    demoOutShift.scaler [[10], [14]] = (List.zipWith (· + ·) (demoOutShift.scaler demoX).1 [10], [2]) := by
  decide +kernel

/-- C122 is false: with features 0 and 4 of the classes 7 and 9, the optimisation on the standardised
    values -1 and 1 finds decision values -5 and 7, which are right, but the fitted object has the decision
    values 1 and 13: it takes every row for the second class. -/
theorem C122_negation : ∃ o' : Obj ℕ ℚ, fit (demoS true) demoOut .fresh demoX demoY none = (o', .ok ()) ∧
    demoX.map (fun x => value true [6, 1] (standard (demoOut.scaler demoX) x)) = [-5, 7] ∧
    demoX.map o'.decision = [.ok [1], .ok [13]] :=
  ⟨⟨some ([2], [2]), some (.inr [0, 1]), some 1, some [[3]], some [1]⟩, by decide +kernel,
    by decide +kernel, by decide +kernel⟩

/-- C122 is false of warm starts, too: with an optimisation that keeps its starting point every further
    fit of the same data divides the coefficients by the standard deviations again. -/
theorem C122_warm_negation : ∃ o1 o2 o3 : Obj ℕ ℚ,
    fit (demoS true) demoOut .fresh demoX demoY none = (o1, .ok ()) ∧
    fit (demoS true) demoOut o1 demoX demoY none = (o2, .ok ()) ∧
    fit (demoS true) demoOut o2 demoX demoY none = (o3, .ok ()) ∧
    o1.coef = some [[3]] ∧ o2.coef = some [[3 / 2]] ∧ o3.coef = some [[3 / 4]] :=
  ⟨⟨some ([2], [2]), some (.inr [0, 1]), some 1, some [[3]], some [1]⟩,
    ⟨some ([2], [2]), some (.inr [0, 1]), some 1, some [[3 / 2]], some [1]⟩,
    ⟨some ([2], [2]), some (.inr [0, 1]), some 1, some [[3 / 4]], some [1]⟩,
    by decide +kernel, by decide +kernel, by decide +kernel, rfl, rfl, rfl⟩

/-- Two fits of the same object without standardisation. -/
example : ∃ o1 o2 : Obj ℕ ℚ, fit (demoS false) demoOut .fresh demoX demoY none = (o1, .ok ()) ∧
    fit (demoS false) demoOut o1 demoX demoY none = (o2, .ok ()) ∧ o2.coef = some [[6]] :=
  ⟨⟨none, some (.inr [0, 1]), some 1, some [[6]], some [1]⟩,
    ⟨none, some (.inr [0, 1]), some 1, some [[6]], some [1]⟩, by decide +kernel, by decide +kernel, rfl⟩

/-! ### C123: failed fits -/

/-- C123, settings: when `C`, `max_iter` or `tol` is not a number or is negative, `fit` raises `ValueError`
    and the object is as before. -/
theorem C123_rejected [LinearOrder L] [LinearOrder K] [Field K] {s : Settings K}
    (h : ∃ v ∈ [s.C, s.maxIter, s.tol], v = none ∨ ∃ x, v = some x ∧ x < 0) (out : Outside K) (o : Obj L K)
    (X : List (List K)) (y : List L) (mask : Option (List (List K))) :
    fit s out o X y mask = (o, .error .valueError) := by
  have hv : validate s = .error .valueError := by
    unfold validate
    obtain ⟨v, hv, h⟩ := h
    simp only [List.mem_cons, List.not_mem_nil, or_false] at hv
    cases hC : s.C with
    | none => rfl
    | some C =>
      cases hM : s.maxIter with
      | none => rfl
      | some m =>
        cases hT : s.tol with
        | none => rfl
        | some t =>
          simp only
          refine if_pos ?_
          rcases hv with rfl | rfl | rfl
          · rw [hC] at h
            obtain h | ⟨x, h, hx⟩ := h
            · cases h
            · injection h with h; subst h; exact Or.inl hx
          · rw [hM] at h
            obtain h | ⟨x, h, hx⟩ := h
            · cases h
            · injection h with h; subst h; exact Or.inr (Or.inl hx)
          · rw [hT] at h
            obtain h | ⟨x, h, hx⟩ := h
            · cases h
            · injection h with h; subst h; exact Or.inr (Or.inr hx)
  unfold fit
  rw [hv]

example : fit ({ demoS true with tol := some (-1) }) demoOut (.fresh : Obj ℕ ℚ) demoX demoY none =
    (.fresh, .error .valueError) :=
  C123_rejected ⟨some (-1), by simp, Or.inr ⟨-1, rfl, by decide +kernel⟩⟩ _ _ _ _ _

/-- C123, the model: a fit that raises leaves `coef_` as it was.  Missing: `intercept_`, which is either
    as before or zero (`C123_negation`). -/
theorem C123_failed_partial [LinearOrder L] [LinearOrder K] [Field K] {s : Settings K} {out : Outside K}
    {o : Obj L K} {X : List (List K)} {y : List L} {mask : Option (List (List K))} {e : PyErr}
    (h : (fit s out o X y mask).2 = .error e) :
    (fit s out o X y mask).1.coef = o.coef ∧
      ((fit s out o X y mask).1.intercept = o.intercept ∨
        ∃ rows, (fit s out o X y mask).1.intercept = some (List.replicate rows 0)) := by
  rcases hr : fit s out o X y mask with ⟨o', r⟩
  rw [hr] at h
  subst h
  obtain ⟨h1, h2 | ⟨rows, _, _, _, h2⟩⟩ := fit_error hr
  · exact ⟨h1, Or.inl h2⟩
  · exact ⟨h1, Or.inr ⟨rows, h2⟩⟩

/-- C123, later fits: once a failed fit has left `coef_` and `intercept_` with different numbers of classes,
    every further fit with a warm start raises, whatever the data. -/
theorem C123_stuck [LinearOrder L] [LinearOrder K] [Field K] {s : Settings K} (hw : s.warmStart = true)
    (hf : s.fi = true) (l : List (Outside K × List (List K) × List L × Option (List (List K))))
    (o : Obj L K) (w : List (List K)) (b : List K) (hc : o.coef = some w) (hi : o.intercept = some b)
    (hl : w.length ≠ b.length) :
    (fits s l o).2.length = l.length ∧ ∀ r ∈ (fits s l o).2, ∃ e, r = .error e := by
  have key : ∀ (l : List (Outside K × List (List K) × List L × Option (List (List K)))) (o : Obj L K),
      Broken o → (fits s l o).2.length = l.length ∧ ∀ r ∈ (fits s l o).2, ∃ e, r = .error e := by
    intro l
    induction l with
    | nil => exact fun o _ => ⟨rfl, fun r hr => by cases hr⟩
    | cons q l ih =>
      obtain ⟨out, X, y, mask⟩ := q
      intro o hb
      obtain ⟨h1, h2⟩ := fit_broken hw hf out hb X y mask
      obtain ⟨h3, h4⟩ := ih _ h2
      refine ⟨?_, fun r hr => ?_⟩
      · simp only [fits, List.length_cons, h3]
      · simp only [fits, List.mem_cons] at hr
        rcases hr with rfl | hr
        · exact h1
        · exact h4 r hr
  exact key l o ⟨w, b, hc, hi, hl⟩

/-- Three classes. -/
def demoOut3 : Outside ℚ := { demoOut with optimise := fun _ => .ok [[1, 2], [3, 4], [5, 6]] }

/-- The object after a fit to three classes, and after a further one to two. -/
def demoFit3 : Obj ℕ ℚ := ⟨none, some (.inr [0, 1, 2]), some 3, some [[1], [3], [5]], some [2, 4, 6]⟩
def demoFailed : Obj ℕ ℚ := ⟨none, some (.inr [0, 1]), some 1, some [[1], [3], [5]], some [0]⟩

/-- C123 is false: a fit to two classes of an object that was fitted to three raises `ValueError`, and the
    object that gave decision values 2, 4 and 6 at zero then gives 0, 0 and 0; the original data cannot be
    fitted again either. -/
theorem C123_negation :
    fit (demoS false) demoOut3 .fresh [[0], [4], [5]] [7, 8, 9] none = (demoFit3, .ok ()) ∧
    fit (demoS false) demoOut demoFit3 demoX demoY none = (demoFailed, .error .valueError) ∧
    demoFit3.decision [0] = .ok [2, 4, 6] ∧ demoFailed.decision [0] = .ok [0, 0, 0] ∧
    (fit (demoS false) demoOut3 demoFailed [[0], [4], [5]] [7, 8, 9] none).2 = .error .valueError := by
  refine ⟨by decide +kernel, by decide +kernel, by decide +kernel, by decide +kernel, by decide +kernel⟩

example : demoFailed.coef = some [[1], [3], [5]] ∧ demoFailed.intercept = some [0] ∧
    (demoS false).warmStart = true ∧ (demoS false).fi = true ∧
    (fits (demoS false) [(demoOut, demoX, demoY, none), (demoOut3, [[0], [4], [5]], [7, 8, 9], none)]
      demoFailed).2 = [.error .valueError, .error .valueError] := by
  refine ⟨rfl, rfl, rfl, rfl, by decide +kernel⟩

/-- What a fitted object, or one that a failed fit has left behind, predicts from: entry `k` of the decision
    values is the inner product with row `k` of `coef_` plus entry `k` of `intercept_`, where a single row
    or a single intercept serves for all; other shapes are refused, and so is an object never fitted. -/
theorem C123_decision [Field K] (o : Obj L K) (x : List K) :
    (∀ w b, o.coef = some w → o.intercept = some b →
      (w.length = b.length ∨ b.length = 1 ∨ w.length = 1) → ∃ d, o.decision x = .ok d ∧
        (d.length = if w.length = 1 then b.length else w.length) ∧
        ∀ k < d.length, d[k]? = some (inner x (w.getD (if w.length = 1 then 0 else k) []) +
          b.getD (if b.length = 1 then 0 else k) 0)) ∧
    (∀ w b, o.coef = some w → o.intercept = some b →
      ¬ (w.length = b.length ∨ b.length = 1 ∨ w.length = 1) → o.decision x = .error .valueError) ∧
    (o.coef = none ∨ o.intercept = none → o.decision x = .error .notFitted) := by
  refine ⟨fun w b hc hi h => ?_, fun w b hc hi h => ?_, fun h => ?_⟩
  · unfold Obj.decision
    rw [hc, hi]
    simp only
    by_cases h1 : w.length = b.length
    · rw [if_pos h1]
      refine ⟨_, rfl, by rw [List.length_zipWith]; split_ifs <;> omega, fun k hk => ?_⟩
      rw [List.length_zipWith] at hk
      have hw : k < w.length := by omega
      have hb : k < b.length := by omega
      have e1 : (if w.length = 1 then 0 else k) = k := by split_ifs <;> omega
      have e2 : (if b.length = 1 then 0 else k) = k := by split_ifs <;> omega
      rw [e1, e2, List.getElem?_zipWith, List.getElem?_eq_getElem hw, List.getElem?_eq_getElem hb,
        List.getD_eq_getElem?_getD, List.getD_eq_getElem?_getD, List.getElem?_eq_getElem hw,
        List.getElem?_eq_getElem hb]
      rfl
    · rw [if_neg h1]
      by_cases h2 : b.length = 1
      · rw [if_pos h2]
        refine ⟨_, rfl, by rw [List.length_map]; split_ifs <;> omega, fun k hk => ?_⟩
        rw [List.length_map] at hk
        rw [if_pos h2, if_neg (by omega), List.getElem?_map, List.getElem?_eq_getElem hk,
          List.getD_eq_getElem?_getD, List.getElem?_eq_getElem hk]
        obtain ⟨c, rfl⟩ := List.length_eq_one_iff.mp h2
        rfl
      · have h3 : w.length = 1 := by tauto
        rw [if_neg h2, if_pos h3]
        refine ⟨_, rfl, by rw [List.length_map, if_pos h3], fun k hk => ?_⟩
        rw [List.length_map] at hk
        rw [if_pos h3, if_neg h2, List.getElem?_map, List.getElem?_eq_getElem hk,
          List.getD_eq_getElem?_getD (l := b), List.getElem?_eq_getElem hk]
        obtain ⟨r, rfl⟩ := List.length_eq_one_iff.mp h3
        rfl
  · unfold Obj.decision
    rw [hc, hi]
    simp only
    rw [if_neg (by tauto), if_neg (by tauto), if_neg (by tauto)]
  · unfold Obj.decision
    split
    · rename_i h1 h2
      rcases h with h | h <;> simp_all
    · rfl

/-- One row of coefficients, three intercepts: the row serves for all. -/
example : ∃ d, (⟨none, none, none, some [[2]], some [1, 2, 3]⟩ : Obj ℕ ℚ).decision [5] = .ok d ∧
    d.length = 3 ∧ d[1]? = some 12 := by
  obtain ⟨d, h1, h2, h3⟩ := (C123_decision (⟨none, none, none, some [[2]], some [1, 2, 3]⟩ : Obj ℕ ℚ) [5]).1
    _ _ rfl rfl (.inr (.inr rfl))
  refine ⟨d, h1, h2, ?_⟩
  rw [h3 1 (by rw [h2]; decide)]
  decide +kernel

/-- C123, shapes: when a fit with more than two classes returns, a warm start had a row per class (or a
    single row), and a mask was cut, in its own order, into one row of equal length per class; so a mask
    whose size is not a multiple of the number of classes and a start with another number of classes are
    refused. -/
theorem C123_shapes [LinearOrder L] [LinearOrder K] [Field K] {s : Settings K} {out : Outside K}
    {o o' : Obj L K} {X : List (List K)} {y : List L} {mask : Option (List (List K))}
    (hk : 2 < y.dedup.length) (h : fit s out o X y mask = (o', .ok ())) :
    (s.warmStart = true → ∀ w, o.coef = some w → w.length = y.dedup.length ∨ w.length = 1) ∧
    (∀ m, mask = some m → ∃ c m' q, c.mask = some m' ∧ (∃ W, out.optimise c = .ok W) ∧
      m'.length = y.dedup.length ∧ (∀ r ∈ m', r.length = q) ∧ m'.flatten = m.flatten) := by
  have hu : (uniq (encode y)).length = y.dedup.length := by
    rw [uniq_encode, List.length_range, uniq, List.length_insertionSort]
  obtain ⟨c, rows, W, h1, h2, h3, h4, h5, h6⟩ := fit_ok_shapes h
  rw [hu] at h1 h2 h5
  have hrows : rows = y.dedup.length := by
    unfold maskedRows at h1
    rw [if_neg (by omega), if_neg (fun hx => by omega)] at h1
    cases h1; rfl
  have hmulti : c.multi = true := by rw [h2]; simp [hk]
  refine ⟨fun hw w hc => ?_, fun m hm => ?_⟩
  · unfold warmCoef at h4
    rw [hw, if_pos rfl, hc] at h4
    simp only at h4
    have key : ∀ st, c.start = some st → st.length = w.length →
        w.length = y.dedup.length ∨ w.length = 1 := by
      intro st hst hl
      rw [hst] at h5
      simp only [Option.all_some, startFits, hmulti, if_true, Bool.and_eq_true, Bool.or_eq_true,
        beq_iff_eq] at h5
      rw [← hl]; exact h5.1
    cases hf : s.fi with
    | false =>
      rw [hf] at h4
      simp only [Bool.false_eq_true, if_false, Except.ok.injEq] at h4
      exact key w h4.symm rfl
    | true =>
      rw [hf] at h4
      simp only [if_true] at h4
      cases hi : o.intercept with
      | none => rw [hi] at h4; cases h4
      | some b =>
        rw [hi] at h4
        simp only at h4
        by_cases hl : w.length = b.length
        · rw [if_pos hl] at h4
          exact key _ (Except.ok.inj h4).symm (by simp [hl])
        · rw [if_neg hl] at h4; cases h4
  · subst hm
    obtain ⟨m', hm', hc⟩ := h6
    rw [hmulti] at hm'
    simp only [reshapeMask, if_true] at hm'
    split_ifs at hm' with hd
    have hq : m.flatten.length = rows * (m.flatten.length / rows) :=
      (Nat.mul_div_cancel' (Nat.dvd_of_mod_eq_zero hd)).symm
    obtain ⟨e1, e2⟩ := range_blocks (m.flatten.length / rows) rows m.flatten hq
    cases hm'
    exact ⟨c, _, m.flatten.length / rows, hc, ⟨W, h3⟩, by simp [hrows], e2, e1⟩

/-- A flat mask is accepted for three classes; a start with four rows is refused, and so is a mask with
    four entries. -/
example : (fit (demoS false) demoOut3 .fresh [[0], [4], [5]] [7, 8, 9] (some [[1, 0, 1]])).2 = .ok () ∧
    2 < ([7, 8, 9] : List ℕ).dedup.length ∧
    (fit (demoS false) demoOut3 .fresh [[0], [4], [5]] [7, 8, 9] (some [[1, 0, 1, 1]])).2 =
      .error .valueError ∧
    (fit (demoS false) demoOut3 ⟨none, none, none, some [[1], [3], [5], [6]], some [2, 4, 6, 8]⟩
      [[0], [4], [5]] [7, 8, 9] none).2 = .error .valueError := by
  refine ⟨by decide +kernel, by decide +kernel, by decide +kernel, by decide +kernel⟩

/-- C123 is false of `C = 0`, which is not positive but accepted: the fit ends in a division by zero, with
    the intercept of the earlier fit erased; so does one with a mask that keeps a feature, while one with a mask
    that keeps none succeeds. -/
theorem C123_zero_negation :
    fit ({ demoS false with C := some 0 }) demoOut ⟨none, some (.inr [0, 1]), some 1, some [[6]], some [1]⟩
      demoX demoY none =
    (⟨none, some (.inr [0, 1]), some 1, some [[6]], some [0]⟩, .error .zeroDivision) ∧
    (fit ({ demoS false with C := some 0 }) demoOut .fresh demoX demoY (some [[1]])).2 = .error .zeroDivision ∧
    (fit ({ demoS false with C := some 0 }) demoOut .fresh demoX demoY (some [[0]])).2 = .ok () := by
  refine ⟨by decide +kernel, by decide +kernel, by decide +kernel⟩

end Verif.MaskedFit
