import Verif.Lemmas.Labels
/-!
Properties of the classifiers concerning labels.
-/
namespace Verif.Labels
open Verif.Py

/-! ### C105: the score by log-likelihood -/

/-- C105, labels that are the numbers 0, 1, ...: the score is the mean log-probability of the classes of
    the samples.  Missing: other labels, see `C105_first` and `C105_negation`. -/
theorem C105_partial {L : Type} [LinearOrder L] {num : Nat → L} {classes : List L} {y : List Nat}
    {pr : List (List ℝ)} (h2 : 2 ≤ classes.length) (hn : classes.Nodup)
    (hc : ∀ c < classes.length, classes[c]? = some (num c)) (ht : Spec.Table classes.length y pr) :
    logScore num classes y pr = .ok (Spec.meanLogProb y pr) := by
  have hidx : ∀ c ∈ y, num c ∈ classes ∧ classes.idxOf (num c) = c := by
    intro c hcy
    have hlt := ht.2.2 c hcy
    have h := hc c hlt
    rw [List.getElem?_eq_getElem hlt] at h
    have e : classes[c] = num c := by simpa using h
    exact ⟨e ▸ List.getElem_mem hlt, by rw [← e]; exact hn.idxOf_getElem c hlt⟩
  have := logScore_of (num := num) rfl h2 ht id fun c hcy r hr => ?_
  · simpa using this
  · by_cases h3 : 3 ≤ classes.length
    · rw [binarize_many h3 hn (hidx c hcy).1 hr, (hidx c hcy).2]; rfl
    · obtain ⟨a, b, rfl⟩ := List.length_eq_two.mp (by omega : classes.length = 2)
      rw [binarize_two hr]
      have hlt : c < 2 := ht.2.2 c hcy
      have h1 : b = num 1 := by simpa using hc 1 (by simp)
      have h0 : a = num 0 := by simpa using hc 0 (by simp)
      have hab : a ≠ b := by simpa using hn
      have hcz : c = 0 ∨ c = 1 := by omega
      rcases hcz with rfl | rfl
      · rw [if_neg (by rw [← h0]; exact hab)]; rfl
      · rw [if_pos h1.symm]; rfl

/-- Three classes, two samples. -/
example : logScore (fun c => (c : ℤ)) [0, 1, 2] [2, 0] [[1/4, 1/4, 1/2], [1/2, 1/4, 1/4]] =
    .ok (Spec.meanLogProb [2, 0] [[1/4, 1/4, 1/2], [1/2, 1/4, 1/4]]) :=
  C105_partial (by decide) (by decide) (by decide) ⟨by decide, by simp, by decide⟩

/-- C105, two labels of which the larger one is 1 (such as -1 and 1): the score is right, too. -/
theorem C105_signs_partial {L : Type} [LinearOrder L] {num : Nat → L} {a : L} {y : List Nat}
    {pr : List (List ℝ)} (h0 : num 0 ≠ num 1) (ht : Spec.Table 2 y pr) :
    logScore num [a, num 1] y pr = .ok (Spec.meanLogProb y pr) := by
  have := logScore_of (num := num) (classes := [a, num 1]) rfl le_rfl ht id fun c hcy r hr => ?_
  · simpa using this
  · rw [binarize_two hr]
    have hlt : c < 2 := ht.2.2 c hcy
    have hcz : c = 0 ∨ c = 1 := by omega
    rcases hcz with rfl | rfl
    · rw [if_neg h0]; rfl
    · rw [if_pos rfl]; rfl

/-- Labels -1 and 1. -/
example : logScore (fun c => (c : ℤ)) [-1, 1] [1, 0] [[1/4, 3/4], [1/2, 1/2]] =
    .ok (Spec.meanLogProb [1, 0] [[1/4, 3/4], [1/2, 1/2]]) :=
  C105_signs_partial (num := fun c => (c : ℤ)) (a := -1) (by decide) ⟨by decide, by simp, by decide⟩

/-- What is computed instead for two labels of which the larger one is neither 0 nor 1: the mean
    log-probability of the first class, whatever the classes of the samples are. -/
theorem C105_first {L : Type} [LinearOrder L] {num : Nat → L} {a b : L} {y : List Nat}
    {pr : List (List ℝ)} (h0 : num 0 ≠ b) (h1 : num 1 ≠ b) (ht : Spec.Table 2 y pr) :
    logScore num [a, b] y pr = .ok (Spec.meanLogProb (y.map fun _ => 0) pr) := by
  refine logScore_of (num := num) (classes := [a, b]) rfl le_rfl ht _ fun c hcy r hr => ?_
  rw [binarize_two hr]
  have hlt : c < 2 := ht.2.2 c hcy
  have hcz : c = 0 ∨ c = 1 := by omega
  rcases hcz with rfl | rfl
  · rw [if_neg h0]
  · rw [if_neg h1]

/-- Labels 1 and 2. -/
example : logScore (fun c => (c : ℤ)) [1, 2] [1, 0] [[1/4, 3/4], [1/2, 1/2]] =
    .ok (Spec.meanLogProb [0, 0] [[1/4, 3/4], [1/2, 1/2]]) :=
  C105_first (num := fun c => (c : ℤ)) (by decide) (by decide) ⟨by decide, by simp, by decide⟩

/-- C105 is false: with the labels 1 and 2 there are two candidates of which the one with the higher
    likelihood has the lower score. -/
theorem C105_negation :
    ∃ (labels : List ℤ) (good bad : List (List ℝ)) (sg sb : ℝ),
      Spec.Table 2 (encode labels) good ∧ Spec.Table 2 (encode labels) bad ∧
      Spec.meanLogProb (encode labels) bad < Spec.meanLogProb (encode labels) good ∧
      logScore (fun c => (c : ℤ)) (uniq labels) (encode labels) good = .ok sg ∧
      logScore (fun c => (c : ℤ)) (uniq labels) (encode labels) bad = .ok sb ∧ sg < sb := by
  have hu : uniq [(1 : ℤ), 2] = [1, 2] := by decide +kernel
  have he : encode [(1 : ℤ), 2] = [0, 1] := by decide +kernel
  have tg : Spec.Table 2 [0, 1] [[(3 : ℝ) / 4, 1 / 4], [1 / 4, 3 / 4]] := ⟨by decide, by simp, by decide⟩
  have tb : Spec.Table 2 [0, 1] [[(3 : ℝ) / 4, 1 / 4], [3 / 4, 1 / 4]] := ⟨by decide, by simp, by decide⟩
  have hlog : Real.log (1 / 4) < Real.log (3 / 4) := Real.log_lt_log (by norm_num) (by norm_num)
  refine ⟨[1, 2], _, _, Spec.meanLogProb [0, 0] [[3 / 4, 1 / 4], [1 / 4, 3 / 4]],
    Spec.meanLogProb [0, 0] [[3 / 4, 1 / 4], [3 / 4, 1 / 4]], he ▸ tg, he ▸ tb, ?_, ?_, ?_, ?_⟩
  · rw [he]
    simp only [Spec.meanLogProb, List.zipWith_cons_cons, List.zipWith_nil_left, List.sum_cons, List.sum_nil,
      List.length_cons, List.length_nil, List.getD_cons_zero, List.getD_cons_succ]
    push_cast
    linarith
  · rw [hu, he]
    exact C105_first (num := fun c => (c : ℤ)) (by decide) (by decide) tg
  · rw [hu, he]
    exact C105_first (num := fun c => (c : ℤ)) (by decide) (by decide) tb
  · simp only [Spec.meanLogProb, List.zipWith_cons_cons, List.zipWith_nil_left, List.sum_cons,
      List.sum_nil, List.length_cons, List.length_nil, List.getD_cons_zero]
    push_cast
    linarith

/-! ### C106: renaming the classes of `UoI_L1Logistic` -/

section
variable {K : Type} [Field K] [LinearOrder K]

/-- C106: a fitted classifier predicts, for every row, one of the labels it was trained on. -/
theorem C106_labels {L S : Type} [LinearOrder L] {multinomial : Bool} {score : List L → S}
    {train : List Nat → Nat → S → Except PyErr (List (List K) × List K)} {y : List L} {clf : Clf L K}
    (hshape : ∀ e r s w b, train e r s = .ok (w, b) → w.length = r ∧ b.length = r)
    (h2 : 2 ≤ (uniq y).length) (hfit : uoiFit multinomial score train y = .ok clf) (x : List K) :
    ∃ l ∈ y, clf.predict x = .ok l := by
  unfold uoiFit at hfit
  split at hfit
  · cases hfit
  · rename_i w b htr
    cases hfit
    obtain ⟨hw, hb⟩ := hshape _ _ _ _ _ htr
    have hd : (Clf.decision (⟨uniq y, w, b⟩ : Clf L K) x).length = outputDim multinomial y := by
      simp [Clf.decision, hw, hb]
    obtain ⟨i, l, -, hl, hp⟩ := predictLabel_ok (classes := uniq y)
      (d := Clf.decision (⟨uniq y, w, b⟩ : Clf L K) x)
      (by intro h; rw [h] at hd; have := outputDim_pos multinomial y; simp at hd; omega) h2
      (hd ▸ outputDim_le h2)
    exact ⟨l, mem_uniq.mp (List.mem_of_getElem? hl), hp⟩

/-- The training of a binary classifier that returns `x - 1`. -/
def demoTrain : List Nat → Nat → Unit → Except PyErr (List (List ℚ) × List ℚ) :=
  fun _ r _ => .ok (List.replicate r [1], List.replicate r (-1))

example : ∃ l ∈ [(5 : ℤ), -3, -3], (⟨[-3, 5], [[1]], [-1]⟩ : Clf ℤ ℚ).predict [3] = .ok l :=
  C106_labels (multinomial := false) (score := fun _ => ()) (train := demoTrain)
    (by rintro e r s w b ⟨⟩; simp) (by decide +kernel) (by rfl) [3]

omit [LinearOrder K] in
/-- C106: renaming the classes by an increasing function renames the predictions and changes nothing
    else, if candidates are scored by accuracy (the score by log-likelihood is not used).  Missing: the
    other scores, see `C106_negation`. -/
theorem C106_rename_partial {L M S : Type} [LinearOrder L] [LinearOrder M] [LinearOrder K]
    {multinomial : Bool} {score : List L → S} {score' : List M → S}
    {train : List Nat → Nat → S → Except PyErr (List (List K) × List K)} {f : L → M} (hf : StrictMono f)
    (hacc : ∀ e r s s', train e r s = train e r s') (y : List L) :
    (uoiFit multinomial score' train (y.map f)).map (fun c => (c.coef, c.intercept, c.predict)) =
      (uoiFit multinomial score train y).map
        fun c => (c.coef, c.intercept, fun x => (c.predict x).map f) := by
  have hd : outputDim multinomial (y.map f) = outputDim multinomial y := by
    unfold outputDim; rw [uniq_map hf]; simp
  unfold uoiFit
  rw [encode_map hf, hd, hacc _ _ _ (score (uniq y)), uniq_map hf]
  cases train (encode y) (outputDim multinomial y) (score (uniq y)) with
  | error e => rfl
  | ok r =>
    simp only [Except.map]
    congr 3
    funext x
    exact predictLabel_map f (uniq y) _

/-- Renaming -3 and 5 to -5 and 11: the prediction at 3 is 5 before and 11 after. -/
example : StrictMono (fun z : ℤ => 2 * z + 1) ∧
    (∀ e r s s', demoTrain e r s = demoTrain e r s') ∧
    ((uoiFit false (fun _ => ()) demoTrain [(5 : ℤ), -3, -3]).map (fun c => c.predict [3])).toOption =
      some (.ok 5) ∧
    ((uoiFit false (fun _ => ()) demoTrain [(11 : ℤ), -5, -5]).map (fun c => c.predict [3])).toOption =
      some (.ok 11) :=
  ⟨fun a b h => by simp only; omega, fun _ _ _ _ => rfl, by decide +kernel, by decide +kernel⟩

end

/-- The candidates of `C105_negation` for two samples: `x`, with probabilities that fit the classes 0 and
    1, and the constant -1, which favours class 0; the one with the higher score is kept, the first on
    ties. -/
noncomputable def demoPick (e : List Nat) (_ : Nat) (score : List Nat → List (List ℝ) → Except PyErr ℝ) :
    Except PyErr (List (List ℝ) × List ℝ) :=
  match score e [[3 / 4, 1 / 4], [1 / 4, 3 / 4]], score e [[3 / 4, 1 / 4], [3 / 4, 1 / 4]] with
  | .ok a, .ok b => if a < b then .ok ([[0]], [-1]) else .ok ([[1]], [0])
  | .error e, _ => .error e
  | _, .error e => .error e

/-- C106 is false for the score by log-likelihood: classes 0 and 1 renamed to 1 and 2; the prediction at 1
    changes from the second class to the first. -/
theorem C106_negation : ∃ (f : ℤ → ℤ) (y : List ℤ) (c c' : Clf ℤ ℝ) (x : List ℝ), StrictMono f ∧
    uoiFit false (logScore fun i => (i : ℤ)) demoPick y = .ok c ∧
    uoiFit false (logScore fun i => (i : ℤ)) demoPick (y.map f) = .ok c' ∧
    c.predict x = .ok 1 ∧ c'.predict x = .ok (f 0) ∧ f 0 ≠ f 1 := by
  have hu : uniq [(1 : ℤ), 2] = [1, 2] := by decide +kernel
  have he : encode [(1 : ℤ), 2] = [0, 1] := by decide +kernel
  have hu' : uniq [(0 : ℤ), 1] = [0, 1] := by decide +kernel
  have he' : encode [(0 : ℤ), 1] = [0, 1] := by decide +kernel
  have tg : Spec.Table 2 [0, 1] [[(3 : ℝ) / 4, 1 / 4], [1 / 4, 3 / 4]] := ⟨by decide, by simp, by decide⟩
  have tb : Spec.Table 2 [0, 1] [[(3 : ℝ) / 4, 1 / 4], [3 / 4, 1 / 4]] := ⟨by decide, by simp, by decide⟩
  have hlog : Real.log (1 / 4) < Real.log (3 / 4) := Real.log_lt_log (by norm_num) (by norm_num)
  have g0 := C105_partial (num := fun c => (c : ℤ)) (classes := [0, 1]) (by decide) (by decide) (by decide) tg
  have b0 := C105_partial (num := fun c => (c : ℤ)) (classes := [0, 1]) (by decide) (by decide) (by decide) tb
  have g1 := C105_first (num := fun c => (c : ℤ)) (a := 1) (b := 2) (by decide) (by decide) tg
  have b1 := C105_first (num := fun c => (c : ℤ)) (a := 1) (b := 2) (by decide) (by decide) tb
  refine ⟨fun z => z + 1, [0, 1], ⟨[0, 1], [[1]], [0]⟩, ⟨[1, 2], [[0]], [-1]⟩, [1],
    fun a b h => by simp only; omega, ?_, ?_, ?_, ?_, by decide⟩
  · unfold uoiFit demoPick
    rw [hu', he', g0, b0]
    simp only
    rw [if_neg]
    simp only [Spec.meanLogProb, List.zipWith_cons_cons, List.zipWith_nil_left, List.sum_cons, List.sum_nil,
      List.length_cons, List.length_nil, List.getD_cons_zero, List.getD_cons_succ]
    push_cast
    linarith
  · have hm : ([(0 : ℤ), 1].map fun z => z + 1) = [1, 2] := by decide
    unfold uoiFit demoPick
    rw [hm, hu, he, g1, b1]
    simp only
    rw [if_pos]
    simp only [Spec.meanLogProb, List.map_cons, List.map_nil, List.zipWith_cons_cons, List.zipWith_nil_left,
      List.sum_cons, List.sum_nil, List.length_cons, List.length_nil, List.getD_cons_zero]
    push_cast
    linarith
  · simp [Clf.predict, Clf.decision, predictLabel, predictIdx]
  · simp [Clf.predict, Clf.decision, predictLabel, predictIdx]
    norm_num

/-- C106, two classes: the second label exactly for positive decision values, so the first at zero. -/
theorem C106_sign {L K : Type} [LinearOrder K] [Field K] (l0 l1 : L) (w : List K) (b : K) (x : List K) :
    (0 < (List.zipWith (· * ·) w x).sum + b →
      (⟨[l0, l1], [w], [b]⟩ : Clf L K).predict x = .ok l1) ∧
    ((List.zipWith (· * ·) w x).sum + b ≤ 0 →
      (⟨[l0, l1], [w], [b]⟩ : Clf L K).predict x = .ok l0) := by
  have e : (⟨[l0, l1], [w], [b]⟩ : Clf L K).decision x = [(List.zipWith (· * ·) w x).sum + b] := by
    simp only [Clf.decision, List.zipWith_cons_cons, List.zipWith_nil_left]
    rw [List.zipWith_comm]
    simp only [mul_comm, List.sum]
  simp only [Clf.predict, predictLabel, e, predictIdx]
  constructor
  · intro h
    rw [if_pos h]
    rfl
  · intro h
    rw [if_neg (not_lt.mpr h)]
    rfl

/-- At decision value zero. -/
example : (⟨["a", "b"], [[1, 1]], [-3]⟩ : Clf String ℚ).predict [1, 2] = .ok "a" :=
  (C106_sign "a" "b" [1, 1] (-3) [1, 2]).2 (by norm_num)

/-! ### C107: labels predicted by `MaskedCoefLogisticRegression` -/

section
variable {K : Type} [Field K] [LinearOrder K]

/-- C107: what `predict` of the masked classifier returns is the position of the predicted class among the
    sorted labels, for every row. -/
theorem C107_positions {L : Type} [LinearOrder L] {multinomial : Bool}
    {solve : List Nat → Nat → List (List K) × List K} {y : List L} {clf : Clf Nat K}
    (hshape : ∀ e r, (solve e r).1.length = r ∧ (solve e r).2.length = r)
    (hfit : maskedFit multinomial solve y = .ok clf) (x : List K) :
    ∃ i < (uniq y).length, predictIdx (clf.decision x) = .ok i ∧ clf.predict x = .ok i := by
  unfold maskedFit at hfit
  simp only [uniq_encode, List.length_range] at hfit
  split at hfit
  · cases hfit
  · rename_i rows hr
    cases hfit
    obtain ⟨h2, h1, hle⟩ := maskedRows_eq hr
    obtain ⟨hw, hb⟩ := hshape (encode y) rows
    have hd : (Clf.decision (⟨List.range (uniq y).length, (solve (encode y) rows).1,
        (solve (encode y) rows).2⟩ : Clf Nat K) x).length = rows := by
      simp [Clf.decision, hw, hb]
    obtain ⟨i, l, hi, hl, hp⟩ := predictLabel_ok (classes := List.range (uniq y).length)
      (d := Clf.decision (⟨List.range (uniq y).length, (solve (encode y) rows).1,
        (solve (encode y) rows).2⟩ : Clf Nat K) x)
      (by intro h; rw [h] at hd; simp at hd; omega) (by simpa using h2) (by simpa [hd] using hle)
    obtain ⟨hi2, rfl⟩ := List.getElem?_eq_some_iff.mp hl
    refine ⟨i, by simpa using hi2, hi, ?_⟩
    simpa [Clf.predict] using hp

/-- A solver that returns the constant -1. -/
def demoSolve : List Nat → Nat → List (List ℚ) × List ℚ :=
  fun _ r => (List.replicate r [0], List.replicate r (-1))

/-- Labels 3, 7. -/
example : ∃ i < (uniq [(3 : ℤ), 7, 7]).length,
    predictIdx ((⟨[0, 1], [[0]], [-1]⟩ : Clf Nat ℚ).decision [5]) = .ok i ∧
    (⟨[0, 1], [[0]], [-1]⟩ : Clf Nat ℚ).predict [5] = .ok i :=
  C107_positions (multinomial := false) (solve := demoSolve) (by simp [demoSolve]) (by rfl) [5]

/-- C107, labels that are the numbers 0, 1, ...: the prediction is one of the labels and the one the
    decision values stand for.  Missing: other labels, see `C107_negation`. -/
theorem C107_partial {multinomial : Bool} {solve : List Nat → Nat → List (List K) × List K} {y : List Nat}
    {k : Nat} (hy : uniq y = List.range k) {clf : Clf Nat K}
    (hshape : ∀ e r, (solve e r).1.length = r ∧ (solve e r).2.length = r)
    (hfit : maskedFit multinomial solve y = .ok clf) (x : List K) :
    ∃ l ∈ y, clf.predict x = .ok l ∧ predictLabel (uniq y) (clf.decision x) = .ok l := by
  obtain ⟨i, hi, hd, hp⟩ := C107_positions hshape hfit x
  rw [hy, List.length_range] at hi
  refine ⟨i, by rw [← mem_uniq, hy]; simpa using hi, hp, ?_⟩
  simp [predictLabel, hd, hy, hi]

example : ∃ l ∈ [1, 0, 1], (⟨[0, 1], [[0]], [-1]⟩ : Clf Nat ℚ).predict [5] = .ok l ∧
    predictLabel (uniq [1, 0, 1]) ((⟨[0, 1], [[0]], [-1]⟩ : Clf Nat ℚ).decision [5]) = .ok l :=
  C107_partial (multinomial := false) (solve := demoSolve) (k := 2) (by decide +kernel) (by simp [demoSolve])
    (by rfl) [5]

end

/-- C107 is false: trained on the labels 1 and 2, the classifier predicts 0. -/
theorem C107_negation : ∃ (y : List Nat) (solve : List Nat → Nat → List (List ℚ) × List ℚ)
    (clf : Clf Nat ℚ) (x : List ℚ) (l : Nat), maskedFit false solve y = .ok clf ∧
    clf.predict x = .ok l ∧ l ∉ y :=
  ⟨[1, 2], demoSolve, ⟨[0, 1], [[0]], [-1]⟩, [5], 0, by rfl, by decide +kernel, by decide⟩

/-! ### C108: class weights -/

/-- C108, integer labels that are the numbers 0, 1, ...: a dictionary gives each sample the weight of its
    label, times the weight given by the caller.  Missing: other labels, see `C108_negation`. -/
theorem C108_dict_partial {L : Type} [LinearOrder L] {num : Nat → L} (hnum : Function.Injective num)
    (multi : Bool) {d : List (L × ℚ)} {sw : List ℚ} {y : List L} {k : Nat}
    (hy : uniq y = (List.range k).map num) (hd : (d.map (·.1)).Nodup) (hk : ∀ e ∈ d, e.1 ∈ y)
    (hs : sw.length = y.length) :
    fitWeights num multi (.dict d) sw y = .ok (Spec.dictSampleWeights d sw y) := by
  have hlen : (uniq y).length = k := by rw [hy]; simp
  have henc : (encode y).map num = y := by
    unfold encode
    rw [List.map_map]
    conv_rhs => rw [← List.map_id y]
    refine List.map_congr_left fun l hl => ?_
    have hmem := mem_uniq.mpr hl
    rw [hy] at hmem
    obtain ⟨c, hc, rfl⟩ := List.mem_map.mp hmem
    have hck : c < k := List.mem_range.mp hc
    simp only [Function.comp_apply, hy, id]
    have := (List.nodup_range.map hnum : ((List.range k).map num).Nodup).idxOf_getElem c (by simpa using hck)
    rw [List.getElem_map, List.getElem_range] at this
    rw [this]
  rw [fitWeights_dict hnum multi hd _ hs, henc]
  intro e he
  have hmem := mem_uniq.mpr (hk e he)
  rw [hy] at hmem
  obtain ⟨c, hc, h⟩ := List.mem_map.mp hmem
  exact ⟨c, hlen ▸ List.mem_range.mp hc, h.symm⟩

example : fitWeights (fun c => (c : ℤ)) false (.dict [(1, 5)]) [1, 2, 1] [1, 0, 1] = .ok [5, 2, 5] := by
  have := C108_dict_partial (num := fun c => (c : ℤ)) (fun a b h => by simpa using h) false
    (d := [(1, 5)]) (sw := [1, 2, 1]) (y := [1, 0, 1]) (k := 2) (by decide +kernel) (by decide) (by decide)
    rfl
  rw [this]
  decide +kernel

/-- C108: without class weights the weights of the samples are those given by the caller. -/
theorem C108_none {L : Type} [LinearOrder L] (num : Nat → L) (multi : Bool) (sw : List ℚ) (y : List L) :
    fitWeights num multi .none sw y = if sw.length = y.length then .ok sw else .error .valueError := by
  unfold fitWeights sampleWeights
  have : (encode y).length = y.length := by simp [encode]
  rw [this]
  by_cases h : sw.length = y.length <;> simp [h]

example : fitWeights (fun c => (c : ℤ)) true .none [1, 2, 1/2] [7, 3, 7] = .ok [1, 2, 1/2] := by
  decide +kernel

/-- C108: `'balanced'` gives all classes the same total weight, and all samples together the weight of the
    number of samples, whatever the labels are. -/
theorem C108_balanced {L : Type} [LinearOrder L] (num : Nat → L) (multi : Bool) (y : List L)
    (h2 : multi = false → (uniq y).length = 2) : ∃ w,
    fitWeights num multi .balanced (List.replicate y.length 1) y = .ok w ∧
    ∀ l ∈ y, Spec.totalWeight l y w = (y.length : ℚ) / (uniq y).length := by
  refine ⟨_, fitWeights_balanced num multi y h2, fun l hl => ?_⟩
  rw [total_const l (fun l => (y.length : ℚ) / ((uniq y).length * y.count l))]
  have hc : (y.count l : ℚ) ≠ 0 := by
    have := List.count_pos_iff.mpr hl
    exact_mod_cast this.ne'
  have hu : ((uniq y).length : ℚ) ≠ 0 := by
    have := List.length_pos_of_mem (mem_uniq.mpr hl)
    exact_mod_cast this.ne'
  field_simp

example : ∃ w, fitWeights (fun c => (c : ℤ)) true .balanced (List.replicate 4 1) [7, 3, 7, 5] = .ok w ∧
    ∀ l ∈ [(7 : ℤ), 3, 7, 5], Spec.totalWeight l [7, 3, 7, 5] w = ((4 : Nat) : ℚ) / 3 := by
  have := C108_balanced (fun c => (c : ℤ)) true [7, 3, 7, 5] (by simp)
  have hu : (uniq [(7 : ℤ), 3, 7, 5]).length = 3 := by decide +kernel
  rw [hu] at this
  exact_mod_cast this

/-- C108 is false for dictionaries: with the labels 1 and 2 a weight for label 1 is given to the samples
    with label 2, and a weight for label 2 is rejected. -/
theorem C108_negation :
    fitWeights (fun c => (c : ℤ)) false (.dict [(1, 5)]) [1, 1, 1] [1, 1, 2] = .ok [1, 1, 5] ∧
    Spec.dictSampleWeights [((1 : ℤ), 5)] [1, 1, 1] [1, 1, 2] = [5, 5, 1] ∧
    fitWeights (fun c => (c : ℤ)) false (.dict [(2, 5)]) [1, 1, 1] [1, 1, 2] = .error .valueError := by
  decide +kernel

end Verif.Labels
