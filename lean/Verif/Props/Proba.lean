import Verif.Lemmas.Proba
import Verif.Lemmas.Logistic
/-!
C147: predicted labels and predicted probabilities belong together (`/repo/src/pyuoi/linear_model/logistic.py:24,247-290`,
`base.py:778-788`).
-/
namespace Verif.Props.Proba
open Verif.Py Verif.Labels Verif.Proba Verif.Spec.Proba Verif.Logistic Verif.Spec.Logistic Verif.Utils

/-- C147 (partial): `predict_proba` of a fitted `UoI_L1Logistic` is a probability vector over the classes, and `predict` returns
    the first of the most probable ones.  Missing: the candidate without features, see `C147_empty` and `C147_negation`. -/
theorem C147_partial {L S : Type} [LinearOrder L] {multinomial : Bool} {score : List L → S}
    {train : List Nat → Nat → S → Except PyErr (List (List ℝ) × List ℝ)} {y : List L} {clf : Clf L ℝ}
    (hshape : ∀ e r s w b, train e r s = .ok (w, b) → w.length = r ∧ b.length = r)
    (h2 : 2 ≤ (uniq y).length) (hfit : uoiFit multinomial score train y = .ok clf) (x : List ℝ) :
    clf.classes = uniq y ∧ Distribution clf.classes.length (proba multinomial clf x) ∧
    ∃ i l, clf.classes[i]? = some l ∧ clf.predict x = .ok l ∧ FirstMost (proba multinomial clf x) i := by
  unfold uoiFit at hfit
  split at hfit
  · cases hfit
  · rename_i w b htr
    cases hfit
    obtain ⟨hw, hb⟩ := hshape _ _ _ _ _ htr
    have hd : (Clf.decision (⟨uniq y, w, b⟩ : Clf L ℝ) x).length = outputDim multinomial y := by
      simp [Clf.decision, hw, hb]
    obtain ⟨f1, i, f2, f3⟩ := probaRow_facts (multinomial := multinomial) h2 (hd ▸ outputDim_cases (multinomial := multinomial) h2)
    refine ⟨rfl, f1, i, ?_⟩
    obtain ⟨i', l, e1, e2, e3⟩ := predictLabel_ok (classes := uniq y) (d := Clf.decision (⟨uniq y, w, b⟩ : Clf L ℝ) x)
      (by intro h; rw [h] at hd; have := outputDim_pos multinomial y; simp at hd; omega) h2 (hd ▸ outputDim_le h2)
    rw [f2] at e1
    cases e1
    exact ⟨l, e2, e3, f3⟩

/-- C147: the same for `MaskedCoefLogisticRegression`, whose classes are positions (C107). -/
theorem C147_masked {L : Type} [LinearOrder L] {multinomial : Bool} {solve : List Nat → Nat → List (List ℝ) × List ℝ} {y : List L}
    {clf : Clf Nat ℝ} (hshape : ∀ e r, (solve e r).1.length = r ∧ (solve e r).2.length = r)
    (hfit : maskedFit multinomial solve y = .ok clf) (x : List ℝ) :
    Distribution clf.classes.length (proba multinomial clf x) ∧
    ∃ i l, clf.classes[i]? = some l ∧ clf.predict x = .ok l ∧ FirstMost (proba multinomial clf x) i := by
  unfold maskedFit at hfit
  dsimp only at hfit
  split at hfit
  · cases hfit
  · rename_i r hr
    cases hfit
    obtain ⟨hw, hb⟩ := hshape (encode y) r
    obtain ⟨h2, hc⟩ := maskedRows_cases hr
    set c : Clf Nat ℝ := ⟨uniq (encode y), (solve (encode y) r).1, (solve (encode y) r).2⟩ with hcdef
    have hd : (c.decision x).length = r := by simp [Clf.decision, hcdef, hw, hb]
    obtain ⟨f1, i, f2, f3⟩ := probaRow_facts (multinomial := multinomial) (d := c.decision x) h2 (by rw [hd]; exact hc)
    refine ⟨f1, i, ?_⟩
    obtain ⟨i', l, e1, e2, e3⟩ := predictLabel_ok (classes := c.classes) (d := c.decision x)
      (by intro h; rw [h] at hd; simp at hd; omega) h2 (by rw [hd]; rcases hc with hc | hc <;> simp only [hcdef] <;> omega)
    rw [f2] at e1
    cases e1
    exact ⟨l, e2, e3, f3⟩

/-- C147, log-odds: with one row of coefficients the decision value is the log-odds of the second class; with one row per class
    differences of decision values are the log-odds between the classes. -/
theorem C147_odds {L : Type} (c : Clf L ℝ) (x : List ℝ) :
    (∀ s, c.decision x = [s] → c.classes.length = 2 → ∃ p q, proba false c x = [p, q] ∧ Real.log (q / p) = s) ∧
    ∀ multinomial, 2 ≤ c.classes.length → (c.decision x).length = c.classes.length → (multinomial = true ∨ 2 < c.classes.length) →
      ∀ (i j : Nat) (a b p q : ℝ), (c.decision x)[i]? = some a → (c.decision x)[j]? = some b → (proba multinomial c x)[i]? = some p →
        (proba multinomial c x)[j]? = some q → Real.log (p / q) = a - b := by
  refine ⟨fun s hs hk => ⟨1 - expit s, expit s, ?_, expit_odds s⟩, fun m h2 hl hm i j a b p q ha hb hp hq => ?_⟩
  · simp [proba, probaRow, hs, hk]
  · exact probaRow_odds h2 hl hm ha hb hp hq

/-- Training that returns the coefficients 1 and the intercepts -1. -/
def demoTrain : List Nat → Nat → Unit → Except PyErr (List (List ℝ) × List ℝ) :=
  fun _ r _ => .ok (List.replicate r [1], List.replicate r (-1))

example : Distribution 2 (proba false (⟨[-3, 5], [[1]], [-1]⟩ : Clf ℤ ℝ) [3]) :=
  (C147_partial (y := [(5 : ℤ), -3, -3]) (multinomial := false) (score := fun _ => ()) (train := demoTrain)
    (by rintro e r s w b h; cases h; simp) (by decide +kernel) (by
      have h1 : uniq [(5 : ℤ), -3, -3] = [-3, 5] := by decide +kernel
      have h2 : outputDim false [(5 : ℤ), -3, -3] = 1 := by decide +kernel
      simp only [uoiFit, h1, h2]; rfl) [3]).2.1

example : Distribution 3 (proba false (⟨[0, 1, 2], [[1], [1], [1]], [-1, -1, -1]⟩ : Clf Nat ℝ) [3]) :=
  (C147_masked (y := [(10 : ℤ), 20, 30]) (multinomial := false)
    (solve := fun _ r => (List.replicate r [1], List.replicate r (-1))) (by simp) (by
      have h1 : encode [(10 : ℤ), 20, 30] = [0, 1, 2] := by decide +kernel
      have h2 : uniq [0, 1, 2] = [0, 1, 2] := by decide +kernel
      simp only [maskedFit, h1, h2]; rfl) [3]).1

example : ∃ p q, proba false (⟨[-3, 5], [[1]], [-1]⟩ : Clf ℤ ℝ) [3] = [p, q] ∧ Real.log (q / p) = 2 :=
  (C147_odds (⟨[-3, 5], [[1]], [-1]⟩ : Clf ℤ ℝ) [3]).1 2 (by norm_num [Clf.decision]) rfl

/-! ### The candidate without features -/

theorem decision_zero (p : Nat) (x : List ℝ) : (List.zipWith (· * ·) x (List.replicate p (0 : ℝ))).foldr (· + ·) 0 = 0 := by
  induction p generalizing x with
  | zero => simp
  | succ p ih => cases x <;> simp [List.replicate_succ, ih]

theorem binIntercept_zero {n : Nat} [NeZero n] (y : Fin n → Fin 2) : binIntercept y = 0 ↔ count y 0 = count y 1 := by
  have hn : (0 : ℝ) < n := by exact_mod_cast Nat.pos_of_ne_zero (NeZero.ne n)
  have he : (0 : ℝ) < epsI := by unfold epsI; positivity
  have he1 : epsI < 1 / 2 := by unfold epsI; norm_num
  have hmean : mean (fun i => ((y i : ℕ) : ℝ)) = count y 1 / n := by rw [mean, sum_label]
  have hb := clip_bounds (count y 1 / n)
  unfold binIntercept
  simp only [hmean]
  have hc : (count y 0 : ℝ) + count y 1 = n := count_two y
  rw [Real.log_eq_zero]
  constructor
  · have hq : min (max ((count y 1 : ℝ) / n) epsI) (1 - epsI) = 1 / 2 → count y 0 = count y 1 := by
      intro h
      have : (count y 1 : ℝ) / n = 1 / 2 := by
        rcases min_choice (max ((count y 1 : ℝ) / n) epsI) (1 - epsI) with h' | h' <;> rw [h'] at h
        · rcases max_choice ((count y 1 : ℝ) / n) epsI with h'' | h'' <;> rw [h''] at h <;> linarith
        · linarith
      rw [div_eq_iff hn.ne'] at this
      have : (count y 0 : ℝ) = count y 1 := by linarith
      exact_mod_cast this
    rintro (h | h | h)
    · have := div_pos hb.1 (sub_pos.2 hb.2); linarith
    · rw [div_eq_one_iff_eq (sub_pos.2 hb.2).ne'] at h
      exact hq (by linarith)
    · have := div_pos hb.1 (sub_pos.2 hb.2); linarith
  · intro h
    have h' : (count y 0 : ℝ) = count y 1 := by exact_mod_cast h
    have : (count y 1 : ℝ) / n = 1 / 2 := by rw [div_eq_iff hn.ne']; linarith
    right; left
    rw [this, max_eq_left he1.le, min_eq_left (by linarith)]
    norm_num

/-- C147, candidate without features: its probabilities are those of the classifier with coefficients zero and its intercept; so
    are its predictions for more than one row of coefficients, and for two classes that are not equally frequent. -/
theorem C147_empty {n : Nat} (p : Nat) (x : List ℝ) :
    (∀ y : Fin n → Fin 2, proba false (emptyBinary p y) x = [1 - binProba y, binProba y]) ∧
    (∀ (k : Nat) [NeZero k] (y : Fin n → Fin k) (multinomial : Bool), 2 ≤ k → (multinomial = true ∨ 2 < k) →
      proba multinomial (emptyMulti p y) x = List.ofFn (multiProba y) ∧ (emptyMulti p y).predict x = multiPredict y) ∧
    ∀ (_ : NeZero n) (y : Fin n → Fin 2), count y 0 ≠ count y 1 → (emptyBinary p y).predict x = .ok (binPredict y) := by
  have hdb : ∀ y : Fin n → Fin 2, (emptyBinary p y).decision x = [binIntercept y] := by
    intro y; simp [Clf.decision, emptyBinary, decision_zero]
  refine ⟨fun y => ?_, fun k _ y m h2 hm => ?_, fun _ y hy => ?_⟩
  · have : expit (binIntercept y) = binProba y := by rw [binProba, sigmoid_eq]; rfl
    unfold proba
    rw [hdb]
    simp [probaRow, emptyBinary, this]
  · have hd : (emptyMulti p y).decision x = List.ofFn (multiIntercept y) := by
      unfold Clf.decision emptyMulti
      refine List.ext_getElem (by simp) fun i h1 h3 => ?_
      simp [decision_zero]
    have hl : (List.ofFn (multiIntercept y)).length = k := by simp
    constructor
    · unfold proba
      rw [hd, show (emptyMulti p y).classes.length = k by simp [emptyMulti]]
      have e : probaRow m k (List.ofFn (multiIntercept y)) = softmaxRow (List.ofFn (multiIntercept y)) := by
        unfold probaRow
        rw [if_neg (by rintro ⟨rfl, hk⟩; rcases hm with hm | hm; exact absurd hm (by decide); omega)]
        split
        · rename_i s hs; rw [hs] at hl; simp at hl; omega
        · rfl
      obtain ⟨c, hc, e2⟩ := softmaxRow_eq (List.ofFn (multiIntercept y))
      have hsum := (softmaxRow_distribution (d := List.ofFn (multiIntercept y)) (by simpa using h2)).2.2
      rw [e2, List.map_ofFn, List.sum_ofFn] at hsum
      rw [e, e2, List.map_ofFn]
      congr 1
      funext i
      unfold multiProba
      rw [softmax_eq]
      have : ∑ j, Real.exp (multiIntercept y j) = c := by
        have h3 : (∑ j, Real.exp (multiIntercept y j)) / c = 1 := by
          rw [Finset.sum_div]; exact hsum
        rwa [div_eq_one_iff_eq hc.ne'] at h3
      rw [this]
      rfl
    · unfold Clf.predict
      rw [hd]
      have hne : predictIdx (List.ofFn (multiIntercept y)) = argmax (List.ofFn (multiIntercept y)) := by
        unfold predictIdx
        split
        · rename_i s hs; rw [hs] at hl; simp at hl; omega
        · rfl
      obtain ⟨i, hi, hlt⟩ := predictIdx_ok (d := List.ofFn (multiIntercept y)) (by intro h; rw [h] at hl; simp at hl; omega)
      have hik : i < k := by rw [hl] at hlt; omega
      simp only [predictLabel, hi]
      unfold multiPredict
      rw [← hne, hi]
      simp [emptyMulti, hik]
  · have h0 := mt (binIntercept_zero y).1 hy
    unfold Clf.predict
    rw [hdb]
    simp only [predictLabel, predictIdx, binPredict, emptyBinary, ge_iff_le]
    rcases lt_or_gt_of_ne h0 with h | h
    · rw [if_neg (not_lt.2 h.le), if_neg (not_le.2 h)]; rfl
    · rw [if_pos h, if_pos h.le]; rfl

example : count ![(0 : Fin 2), 1, 1] 0 ≠ count ![(0 : Fin 2), 1, 1] 1 := by decide

/-- C147 is false for two equally frequent classes: the candidate without features predicts the second class everywhere,
    although the first is as probable, and the classifier it stands for predicts the first. -/
theorem C147_negation {n : Nat} [NeZero n] (y : Fin n → Fin 2) (hy : count y 0 = count y 1) (p : Nat) (x : List ℝ) :
    binPredict y = 1 ∧ binProba y = 1 / 2 ∧ (emptyBinary p y).predict x = .ok 0 ∧
      ¬ FirstMost (proba false (emptyBinary p y) x) (binPredict y) := by
  have h0 := (binIntercept_zero y).2 hy
  have h1 : binPredict y = 1 := by simp [binPredict, h0]
  have h2 : binProba y = 1 / 2 := by rw [binProba, h0, sigmoid_eq]; norm_num
  refine ⟨h1, h2, ?_, ?_⟩
  · simp [Clf.predict, Clf.decision, emptyBinary, decision_zero, h0, predictLabel, predictIdx]
  · rw [(C147_empty p x).1 y, h1, h2]
    rintro ⟨q, hq, -, hlt⟩
    cases hq
    have := hlt 0 (by norm_num) _ rfl
    norm_num at this

example : binPredict ![(0 : Fin 2), 1] = 1 ∧ (emptyBinary 3 ![(0 : Fin 2), 1]).predict [1, 2, 3] = .ok 0 :=
  have h := C147_negation ![(0 : Fin 2), 1] (by decide) 3 [1, 2, 3]
  ⟨h.1, h.2.2.1⟩

end Verif.Props.Proba
