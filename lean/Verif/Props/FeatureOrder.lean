import Verif.Lemmas.FeatureOrder
import Verif.Props.LogisticL1
import Mathlib.Tactic.FinCases
/-!
The order and the signs of the features and the order of the samples do not matter to the Poisson and the
L1-penalised logistic fits (C120).
-/
namespace Verif.FeatureOrder
open Finset Verif.Lbfgs Verif.Lbfgs.Spec Verif.Py Verif.Poisson Verif.Logistic

variable {n p : Nat}

/-! ### C120 -/

/-- C120, Poisson: fitting the data with the features in another order and with other signs to an object whose
    previous coefficients are in that order gives the coefficients in that order, the same intercept and the
    same exception or warning. -/
theorem C120_poisson (a : LArgs) (π : Equiv.Perm (Fin p)) (s : Fin p → ℝ) (hs : ∀ j, s j = 1 ∨ s j = -1)
    (X : Fin n → Fin p → ℝ) (y sw : Fin n → ℝ) (o : PObj p) :
    (∀ r w, LbfgsFit a X y sw o r w →
      LbfgsFit a (fun i => reorder π s (X i)) y sw (poisson π s o) (r.map (poisson π s)) w) ∧
    ∀ r' w, LbfgsFit a (fun i => reorder π s (X i)) y sw (poisson π s o) r' w →
      ∃ r, LbfgsFit a X y sw o r w ∧ r' = r.map (poisson π s) := by
  have h0 : (fun _ => 0 : Fin p → ℝ) = reorder π s fun _ => 0 := by funext j; simp [reorder]
  have hz : poisson π s ⟨some fun _ => 0, some (Scaling.poisInterceptOnly y)⟩ =
      ⟨some fun _ => 0, some (Scaling.poisInterceptOnly y)⟩ := by
    unfold poisson
    rw [Option.map_some, ← h0]
  constructor
  · rintro r w (⟨hy, rfl, rfl⟩ | ⟨hy, x0, hx0, res, tr, hf, h⟩)
    · refine .inl ⟨hy, ?_, rfl⟩
      show Except.ok _ = _
      rw [hz]
    · refine .inr ⟨hy, flat a π s x0, ?_, changed (flat a π s) res, tr.map (flat a π s),
        fmin_map (same_poisson hs a X y sw) (pois_compat hs a) hf, ?_⟩
      · rw [poisStart_reorder hs, hx0]; rfl
      · rcases h with ⟨x, w', rfl, rfl, rfl⟩ | ⟨e, msg, rfl, rfl, rfl⟩
        · refine .inl ⟨_, _, rfl, ?_, rfl⟩
          rw [poisStore_reorder hs]; rfl
        · exact .inr ⟨_, _, rfl, rfl, rfl⟩
  · rintro r' w (⟨hy, rfl, rfl⟩ | ⟨hy, x0', hx0', res', tr', hf, h⟩)
    · refine ⟨_, .inl ⟨hy, rfl, rfl⟩, ?_⟩
      show _ = Except.ok _
      rw [hz]
    · rw [poisStart_reorder hs] at hx0'
      obtain ⟨x0, hx0, rfl⟩ := Option.map_eq_some_iff.1 hx0'
      obtain ⟨res, tr, hf0, rfl, -⟩ := fmin_unmap (same_poisson hs a X y sw) (pois_compat hs a) hf
      rcases res with ⟨x, wr⟩ | ⟨e, msg⟩
      · rcases h with ⟨x', w', hr, rfl, rfl⟩ | ⟨e, msg, hr, -, -⟩
        · obtain ⟨rfl, rfl⟩ := Res.returned.inj hr
          refine ⟨_, .inr ⟨hy, x0, hx0, _, tr, hf0, .inl ⟨x, _, rfl, rfl, rfl⟩⟩, ?_⟩
          rw [poisStore_reorder hs]; rfl
        · cases hr
      · rcases h with ⟨x', w', hr, -, -⟩ | ⟨e', msg', hr, rfl, rfl⟩
        · cases hr
        · obtain ⟨rfl, rfl⟩ := Res.raised.inj hr
          exact ⟨_, .inr ⟨hy, x0, hx0, _, tr, hf0, .inr ⟨_, _, rfl, rfl, rfl⟩⟩, rfl⟩

/-- Two features exchanged and the sign of the first one changed: a new object, with every setting. -/
example (a : LArgs) (y sw : Fin 3 → ℝ) (X : Fin 3 → Fin 2 → ℝ) (c : Fin 2 → ℝ) (b : Option (WithBot ℝ))
    (h : LbfgsFit a X y sw .new (.ok ⟨some c, b⟩) none) :
    LbfgsFit a (fun i => ![-X i 1, X i 0]) y sw .new (.ok ⟨some ![-c 1, c 0], b⟩) none := by
  have e : ∀ x : Fin 2 → ℝ, ![-x 1, x 0] = reorder (Equiv.swap 0 1) ![-1, 1] x := by
    intro x
    funext i
    fin_cases i <;> simp [reorder]
  simp only [e]
  exact (C120_poisson a (Equiv.swap 0 1) ![-1, 1] (fun j => by fin_cases j <;> simp) X y sw .new).1 _ _ h

/-- C120, Poisson: the order of the samples does not matter. -/
theorem C120_poisson_rows (a : LArgs) (ρ : Equiv.Perm (Fin n)) (X : Fin n → Fin p → ℝ) (y sw : Fin n → ℝ)
    (o : PObj p) (r : Except PyErr (PObj p)) (w : Option String) :
    LbfgsFit a (fun i => X (ρ i)) (fun i => y (ρ i)) (fun i => sw (ρ i)) o r w ↔ LbfgsFit a X y sw o r w := by
  have hy : (∀ i i', y (ρ i) = y (ρ i')) ↔ ∀ i i', y i = y i' :=
    ⟨fun h i i' => by simpa using h (ρ.symm i) (ρ.symm i'), fun h i i' => h _ _⟩
  have hi : (Scaling.poisInterceptOnly fun i => y (ρ i)) = Scaling.poisInterceptOnly y := by
    unfold Scaling.poisInterceptOnly
    have : (∃ i, y (ρ i) ≠ 0) ↔ ∃ i, y i ≠ 0 :=
      ⟨fun ⟨i, h⟩ => ⟨ρ i, h⟩, fun ⟨i, h⟩ => ⟨ρ.symm i, by simpa using h⟩⟩
    have hm : Utils.mean (fun i => y (ρ i)) = Utils.mean y := mean_rows ρ y
    simp only [this, hm]
  unfold LbfgsFit
  rw [hy, hi, poisStart_rows, poisCallables_rows]
  simp only [poisStore_rows]

/-- The first and the last of three samples exchanged. -/
example (a : LArgs) (x y : Fin 3 → ℝ) (o : PObj 1) (h : LbfgsFit a (fun i _ => x i) y (fun _ => 1) .new (.ok o) none) :
    LbfgsFit a (fun i _ => ![x 2, x 1, x 0] i) ![y 2, y 1, y 0] (fun _ => 1) .new (.ok o) none := by
  have e : ∀ v : Fin 3 → ℝ, ![v 2, v 1, v 0] = fun i => v (Equiv.swap 0 2 i) := by
    intro v
    funext i
    fin_cases i <;> simp [Equiv.swap_apply_def]
  rw [e x, e y]
  exact (C120_poisson_rows a (Equiv.swap 0 2) (fun i _ => x i) y (fun _ => 1) .new _ _).2 h

/-- C120, logistic regression with the L1 penalty and an intercept: fitting the data with the features in
    another order and with other signs, the mask and the starting coefficients in that order too, gives the
    coefficients in that order, the same intercepts and the same exception or warning. -/
theorem C120_logistic_partial (a : PathArgs) (hf : a.fi = true) (hw : ∀ w, a.warm = some w → a.p ≤ w.1)
    (π : Equiv.Perm (Fin a.p)) (s : Fin a.p → ℝ) (hs : ∀ j, s j = 1 ∨ s j = -1) (d : L1Data n) (C tol : ℝ)
    (maxIter : Nat) :
    (∀ r w, L1Fit a d C tol maxIter r w →
      ∃ r', L1Fit (settings a π s) (data d π s) C tol maxIter r' w ∧ SameOutcome a π s r r') ∧
    ∀ r' w, L1Fit (settings a π s) (data d π s) C tol maxIter r' w →
      ∃ r, L1Fit a d C tol maxIter r w ∧ SameOutcome a π s r r' := by
  have hst := l1Start_reorder (a := a) (π := π) (s := s) hf hw
  constructor
  · rintro r w ⟨res, tr, h, rfl, rfl⟩
    have h' := fmin_map (l1_same (π := π) hs hf d) (l1_compat hs C tol maxIter) h
    rw [← hst] at h'
    refine ⟨_, ⟨changed (l1Flat a π s) res, _, h', rfl, ?_⟩, outcome_same π s res⟩
    cases res <;> rfl
  · rintro r' w ⟨res', tr', h, rfl, rfl⟩
    have h' : Fmin (l1Callables (settings a π s) (data d π s)) (l1Args a C tol maxIter)
      (l1Flat a π s fun i => l1Start a i) 0 res' tr' := by
      rw [← hst]; exact h
    obtain ⟨res, tr, h0, rfl, -⟩ := fmin_unmap (l1_same hs hf d) (l1_compat hs C tol maxIter) h'
    refine ⟨_, ⟨res, tr, h0, rfl, ?_⟩, outcome_same π s res⟩
    cases res <;> rfl

/-- A binary fit of two features, a mask of the second one, with the features exchanged. -/
example (d : L1Data 3) (C tol : ℝ) (x : Nat → ℝ)
    (h : L1Fit ⟨false, true, true, 2, 2, some fun _ j => if j = 1 then 0 else 1, none, fun _ => 0⟩ d C tol 50
      (.ok (.point x)) none) :
    ∃ x', L1Fit ⟨false, true, true, 2, 2, some fun _ j => if column (Equiv.swap (0 : Fin 2) 1) j = 1 then 0 else 1, none,
        fun _ => 0⟩ (data d (Equiv.swap (0 : Fin 2) 1) fun _ => 1) C tol 50 (.ok (.point x')) none ∧
      x' 0 = x 1 ∧ x' 1 = x 0 ∧ x' 2 = x 2 := by
  obtain ⟨r', h1, h2⟩ := (C120_logistic_partial
    ⟨false, true, true, 2, 2, some fun _ j => if j = 1 then 0 else 1, none, fun _ => 0⟩ rfl
    (fun w hw => by cases hw) (Equiv.swap (0 : Fin 2) 1) (fun _ => 1) (fun _ => .inl rfl) d C tol 50).1 _ _ h
  rcases r' with _ | _ | _
  · cases h2
  · rename_i x'
    refine ⟨x', h1, ?_, ?_, ?_⟩
    · simpa [coefs, reshape, table, column, colSign] using h2 0 0 (by decide) (by decide)
    · simpa [coefs, reshape, table, column, colSign] using h2 0 1 (by decide) (by decide)
    · simpa [coefs, reshape, table, column, colSign] using h2 0 2 (by decide) (by decide)
  · cases h2

/-- C120, logistic regression with the L1 penalty: the order of the samples does not matter. -/
theorem C120_logistic_rows (a : PathArgs) (ρ : Equiv.Perm (Fin n)) (d : L1Data n) (C tol : ℝ) (maxIter : Nat)
    (r : Except PyErr L1Result) (w : Option String) :
    L1Fit a (dataRows d ρ) C tol maxIter r w ↔ L1Fit a d C tol maxIter r w := by
  unfold L1Fit
  rw [l1Callables_rows]

/-- The samples of a multinomial problem in reverse order. -/
example : L1Fit exArgs3 (dataRows exData3 Fin.revPerm) 2 (1 / 10 ^ 4) 100
    (.ok (.point (ofVec fun i : Fin exArgs3.size => l1Start exArgs3 i))) none :=
  (C120_logistic_rows exArgs3 Fin.revPerm exData3 2 _ 100 _ _).2 exFit3

/-- The labels 0, 0, 1. -/
def exLabels : Fin 3 → Fin 2 := ![0, 0, 1]

/-- A multinomial problem of two classes and two features without an intercept. -/
noncomputable def exNoInt : PathArgs :=
  ⟨true, true, false, 2, 2, none, none, fun c => if h : c < 2 then multiIntercept exLabels ⟨c, h⟩ else 0⟩

/-- Its data: both features are the same. -/
noncomputable def exNoIntData : L1Data 3 :=
  ⟨fun i _ => i.val, fun _ => 0, fun i c => if (exLabels i).val = c then 1 else 0, fun _ => 1⟩

theorem exLabels_freq : freq exLabels 0 = 2 / 3 ∧ freq exLabels 1 = 1 / 3 := by
  constructor <;> simp [freq, Utils.mean, exLabels, Fin.sum_univ_three] <;> norm_num

theorem exLabels_intercept : multiIntercept exLabels 1 ≠ 0 := by
  have hne : ∀ c, freq exLabels c ≠ 0 := by
    intro c
    fin_cases c
    · show freq exLabels 0 ≠ 0; rw [exLabels_freq.1]; norm_num
    · show freq exLabels 1 ≠ 0; rw [exLabels_freq.2]; norm_num
  have hadj : ∀ c, adjFreq exLabels c = freq exLabels c := by
    intro c
    unfold adjFreq
    have : (Finset.univ.filter fun c => freq exLabels c ≠ 0) = Finset.univ := by
      rw [Finset.filter_eq_self]
      exact fun c _ => hne c
    simp only [this]
    rw [if_neg (by simp)]
  have hsup : Real.log (adjFreq exLabels 0) ≤
      Finset.univ.sup' Finset.univ_nonempty fun c => Real.log (adjFreq exLabels c) :=
    Finset.le_sup' (fun c => Real.log (adjFreq exLabels c)) (Finset.mem_univ 0)
  have hlog : Real.log (adjFreq exLabels 1) < Real.log (adjFreq exLabels 0) := by
    rw [hadj, hadj, exLabels_freq.1, exLabels_freq.2]
    exact Real.log_lt_log (by norm_num) (by norm_num)
  unfold multiIntercept
  exact ne_of_lt (by linarith)

/-- The exchange of its features. -/
def exSwap2 : Equiv.Perm (Fin 2) := Equiv.swap 0 1

/-- It starts within a tolerance of 10. -/
theorem exNoInt_fit : L1Fit exNoInt exNoIntData 1 10 100
    (.ok (.point (ofVec fun i : Fin exNoInt.size => l1Start exNoInt i))) none := by
  refine l1Fit_loose (M := 2) (W := 1) ⟨by norm_num, by norm_num, fun i j _ => ?_, fun i => ?_, fun h => ?_, fun _ => ?_,
    fun m h => ?_⟩ (by norm_num) (by norm_num) (by decide) ?_ 100
  · fin_cases i <;> simp [exNoIntData]
  · simp [exNoIntData]
  · simp [exNoInt] at h
  · refine ⟨by decide, fun i c _ => ?_⟩
    simp only [exNoIntData]
    split_ifs <;> norm_num
  · simp [exNoInt] at h
  · rw [show exNoInt.size = 4 from rfl]
    norm_num

/-- **C120 is false without an intercept**: the start of a multinomial fit has the intercepts of the classes in
    the column of the last feature (`logistic.py:592-593`), so that of two equal features the last one gets the
    coefficients when the tolerance is loose; with the features exchanged it is still the last one. -/
theorem C120_logistic_negation : ¬ ∀ (a : PathArgs) (π : Equiv.Perm (Fin a.p)) (d : L1Data 3) (C tol : ℝ) (maxIter : Nat)
    (r r' : Except PyErr L1Result) (w w' : Option String), a.warm = none → 0 < C →
    L1Fit a d C tol maxIter r w → L1Fit (settings a π fun _ => 1) (data d π fun _ => 1) C tol maxIter r' w' →
    SameOutcome a π (fun _ => 1) r r' := by
  intro h
  have e2 : data exNoIntData exSwap2 (fun _ => 1) = exNoIntData := by
    unfold data
    have : table exSwap2 (fun _ => 1) exNoIntData.X = exNoIntData.X := by
      funext i j
      simp [table, exNoIntData, colSign]
    rw [this]
  have hfit : L1Fit (settings exNoInt exSwap2 fun _ => 1) (data exNoIntData exSwap2 fun _ => 1) 1 10 100
      (.ok (.point (ofVec fun i : Fin exNoInt.size => l1Start exNoInt i))) none := by
    rw [e2]; exact exNoInt_fit
  have h0 := h exNoInt exSwap2 exNoIntData 1 10 100 _ _ none none rfl one_pos exNoInt_fit hfit
  have h1 := h0 1 0 (by decide) (by decide)
  have hr : (1 : Nat) < exNoInt.rows := by decide
  rw [coefs_pos exNoInt _ hr] at h1
  have h2 : table exSwap2 (fun _ => 1)
      (coefs exNoInt (ofVec fun i : Fin exNoInt.size => l1Start exNoInt i)) 1 0 =
      ofVec (fun i : Fin exNoInt.size => l1Start exNoInt i) (pos exNoInt 1 1) := by
    refine Eq.trans ?_ (coefs_pos exNoInt _ hr 1)
    simp [table, colSign, column, exSwap2]
  have h3 := h1.trans h2
  rw [ofVec_restrict _ (pos_lt hr (by decide)), ofVec_restrict _ (pos_lt hr (by decide)),
    l1Start_pos hr (by decide), l1Start_pos hr (by decide)] at h3
  have s0 : startPoint exNoInt 1 0 = 0 := by simp [startPoint, exNoInt, PathArgs.cols]
  have s1 : startPoint exNoInt 1 1 = multiIntercept exLabels 1 := by simp [startPoint, exNoInt, PathArgs.cols]
  rw [s0, s1] at h3
  exact exLabels_intercept h3.symm

end Verif.FeatureOrder
