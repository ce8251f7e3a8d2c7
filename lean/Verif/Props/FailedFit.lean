import Verif.Lemmas.FailedFit
import Verif.Props.Estimator
/-!
What a call of `fit` that raises leaves behind (C124).
-/
namespace Verif.Props
open Verif.Py Verif.Fit Verif.Intersection Verif.Estimator Verif.FailedFit Verif.Spec.FailedFit

variable {D L K G S M RP : Type}

/-- The step-by-step fit and the fit of `Verif.Estimator` agree on what a call returns or raises once the
    checks have been passed, and `classes_` are those of the data. -/
theorem C124_agrees [LinearOrder K] [Field K] (c : Task D L K G S M RP) (o o' : Est L K G S RP) (d : D)
    (hp : c.pre d = .ok ()) (hc : c.check d = .ok ()) :
    (c.fit o d = (o', .ok ()) → c.cls.fit o.obj d = .ok o'.obj) ∧
    (∀ e, c.fit o d = (o', .error e) → c.cls.fit o.obj d = .error e) := by
  have key : result (c.fit o d) = c.cls.fit o.obj d := by
    simp only [Task.fit, hp, hc, Est.then, relabel_obj, Cls.fit]
    cases hy : c.cls.constY d with
    | true =>
      simp only [if_true, result_finish, relabel_obj]
      cases (c.cls.env d []).fitIntercept _ with
      | error e => rfl
      | ok i =>
        simp only
        cases (c.cls.env d []).post _ i <;> rfl
    | false =>
      simp only [Bool.false_eq_true, if_false, result_select, run]
      cases (Fit.fit (c.cls.env d (c.cls.getRegParams o.obj.cache d).1) 1 0 o.obj.gen
          o.obj.sel).outcome with
      | none => rfl
      | some r => cases r <;> rfl
  refine ⟨fun h => ?_, fun e h => ?_⟩ <;> · rw [← key, h]; rfl

/-- Data that the first check rejects leave the whole object as it was. -/
theorem C124_rejected [LinearOrder K] [Field K] (c : Task D L K G S M RP) (o : Est L K G S RP) (d : D)
    (e : PyErr) (h : c.pre d = .error e) : c.fit o d = (o, .error e) := by
  simp [Task.fit, h, Est.then]

/-- **C124**, for a model without `classes_` or data with the classes of the earlier fit, if the refit of
    the intercept and the undoing of the standardisation do not raise: a call of `fit` that raises, at
    whatever point, leaves the predictions of the object as they were. -/
theorem C124_kept_partial [LinearOrder K] [Field K] (c : Task D L K G S M RP) (o o' : Est L K G S RP)
    (d : D) (e : PyErr) (hl : c.labels d = none ∨ c.labels d = o.classes)
    (he : ∀ regs, EndsWell (c.cls.env d regs)) (h : c.fit o d = (o', .error e)) : PredictAlike o o' := by
  have hr : (o.relabel (c.labels d)).classes = o.classes := by
    rcases hl with hl | hl
    · rw [hl]; rfl
    · cases hx : c.labels d with
      | none => rfl
      | some l => rw [hx] at hl; exact hl
  rcases fit_outcome h with ⟨rfl, -⟩ | ⟨rfl, -⟩ | ⟨-, -, -, h1, h2, -⟩ | ⟨-, -, -, -, h1, h2⟩
  · exact ⟨rfl, rfl, rfl⟩
  · exact ⟨by rw [relabel_obj], by rw [relabel_obj], hr⟩
  · rcases h1 with ⟨h1, h3⟩ | h1
    · exact ⟨by rw [h1, relabel_obj], by rw [h3, relabel_obj], h2.trans hr⟩
    · exact absurd h1 (not_late (he _))
  · rcases h1 with ⟨h1, h3⟩ | h1
    · exact ⟨h1, h3, h2.trans hr⟩
    · exact absurd h1 (not_late (he _))

/-- Whatever the class: coefficients change in a failed call only if the refit of the intercept or the
    undoing of the standardisation is what raised; before that, `coef_` and `intercept_` stay. -/
theorem C124_late [LinearOrder K] [Field K] (c : Task D L K G S M RP) (o o' : Est L K G S RP)
    (d : D) (e : PyErr) (h : c.fit o d = (o', .error e))
    (hn : o'.obj.coef ≠ o.obj.coef ∨ o'.obj.intercept ≠ o.obj.intercept) :
    ∃ regs w, o'.obj.coef = some w ∧ ((c.cls.env d regs).fitIntercept w = .error e ∨
      ∃ i, (c.cls.env d regs).fitIntercept w = .ok i ∧ (c.cls.env d regs).post w i = .error e ∧
        o'.obj.intercept = some i) := by
  have kept : ¬ (o'.obj.coef = o.obj.coef ∧ o'.obj.intercept = o.obj.intercept) := by
    rintro ⟨h1, h2⟩
    rcases hn with hn | hn
    · exact hn h1
    · exact hn h2
  have late : ∀ {regs} {o1 : Est L K G S RP}, Late (c.cls.env d regs) o1 o' e →
      ∃ regs w, o'.obj.coef = some w ∧ ((c.cls.env d regs).fitIntercept w = .error e ∨
      ∃ i, (c.cls.env d regs).fitIntercept w = .ok i ∧ (c.cls.env d regs).post w i = .error e ∧
        o'.obj.intercept = some i) := by
    rintro regs o1 ⟨w, h1, ⟨h2, -⟩ | h2⟩
    · exact ⟨regs, w, h1, Or.inl h2⟩
    · exact ⟨regs, w, h1, Or.inr h2⟩
  rcases fit_outcome h with ⟨rfl, -⟩ | ⟨rfl, -⟩ | ⟨-, -, -, h1, -⟩ | ⟨-, -, -, -, h1, -⟩
  · exact absurd ⟨rfl, rfl⟩ kept
  · exact absurd (by rw [relabel_obj]; exact ⟨rfl, rfl⟩) kept
  · rcases h1 with h1 | h1
    · rw [relabel_obj] at h1; exact absurd h1 kept
    · exact late h1
  · rcases h1 with h1 | h1
    · exact absurd h1 kept
    · exact late h1

/-- A failed first fit decides the regularization grid of the next one: if the estimator keeps its grid and
    the data that made `fit` raise had passed the checks and did not have a constant response, the next fit
    uses the grid of those data. -/
theorem C124_grid [LinearOrder K] [Field K] (c : Task D L K G S M RP) (o o1 o2 : Est L K G S RP)
    (d d' : D) (e : PyErr) (hk : c.cls.caches = true) (h0 : o.obj.cache = none)
    (hp : c.pre d = .ok ()) (hc : c.check d = .ok ()) (hy : c.cls.constY d = false)
    (hy' : c.cls.constY d' = false)
    (h1 : c.fit o d = (o1, .error e)) (h2 : c.fit o1 d' = (o2, .ok ())) :
    o2.obj.regParams = some (c.cls.grid d) := by
  have hc1 : o1.obj.cache = some (c.cls.grid d) := by
    rcases fit_outcome h1 with ⟨-, hx⟩ | ⟨-, hx⟩ | ⟨-, -, hx, -⟩ | ⟨-, -, -, hx, -⟩
    · rw [hp] at hx; cases hx
    · rw [hc] at hx; cases hx
    · rw [hy] at hx; cases hx
    · rw [hx]; simp [Cls.getRegParams, hk, h0]
  have hp' : c.pre d' = .ok () := by
    cases hx : c.pre d' with
    | ok u => rfl
    | error e' => rw [C124_rejected c o1 d' e' hx] at h2; simp at h2
  have hc' : c.check d' = .ok () := by
    cases hx : c.check d' with
    | ok u => rfl
    | error e' => simp [Task.fit, hp', hx, Est.then] at h2
  have h3 := (C124_agrees c o1 o2 d' hp' hc').1 h2
  simp only [Cls.fit, hy', Bool.false_eq_true, if_false, Cls.getRegParams, hk, if_true, hc1] at h3
  split at h3
  · rw [← Except.ok.inj h3]
  · cases h3
  · cases h3

/-! ### Concrete fits -/

/-- A classifier over the example problem of C08: data set 1 has the classes 0 and 1; data set 2 has the
    classes 5 and 7, but the bootstraps cannot be drawn (one sample of a class); data set 3 contains a
    NaN; data set 4 has the classes 0 and 1 and cannot be drawn either; data set 5 has the
    classes 5 and 7 and an infinite feature; all samples of data set 0 are of
    class 5, for which the intercept cannot be fitted (C18). -/
def demoTask (classifier : Bool) : Task Nat Nat ℚ Nat ℚ (List ℚ) ℚ where
  cls :=
    { caches := true
      grid := fun d => [d, d / 2]
      env := fun d regs =>
        { demo with
          regParams := regs
          draw := fun e g => if d = 2 ∨ d = 4 then .error .valueError else demo.draw e g
          fitIntercept := fun w =>
            if classifier ∧ d = 0 then .error .valueError else demo.fitIntercept w }
      constY := fun d => d == 0
      after := fun _ g s => (g + 12, s) }
  pre d := if d = 3 then .error .valueError else .ok ()
  labels d :=
    if classifier then some (if d = 2 ∨ d = 5 then [5, 7] else if d = 0 then [5] else [0, 1]) else none
  check d := if d = 5 then .error .valueError else .ok ()

/-- A new estimator. -/
def demoNew : Est Nat ℚ Nat ℚ ℚ := ⟨Obj.new 0 0, none⟩

/-- The object after fitting data set 1. -/
def demoFitted (classifier : Bool) : Est Nat ℚ Nat ℚ ℚ := ((demoTask classifier).fit demoNew 1).1

/-- **C124** is false of the classifier: data set 1 is fitted, a row is given class 1; fitting data set 2
    raises, and now the old coefficients give the same row class 7, which no completed fit has seen; even data
    that are refused by the checks (data set 5) do that. -/
theorem C124_negation :
    ((demoTask true).fit demoNew 1).2 = .ok () ∧
    ((demoTask true).fit (demoFitted true) 2).2 = .error .valueError ∧
    labelOf (demoFitted true) [1, 0] = some 1 ∧
    labelOf ((demoTask true).fit (demoFitted true) 2).1 [1, 0] = some 7 ∧
    ((demoTask true).fit (demoFitted true) 5).2 = .error .valueError ∧
    labelOf ((demoTask true).fit (demoFitted true) 5).1 [1, 0] = some 7 := by
  decide +kernel

/-- Fitting a classifier on samples of one class raises (C18), and it erases the coefficients of the
    earlier fit: the earlier intercept stays beside zero coefficients, and the earlier predictions become
    an error. -/
theorem C124_constant_negation :
    ((demoTask true).fit (demoFitted true) 0).2 = .error .valueError ∧
    (demoFitted true).obj.coef = some ⟨[1, 2], .f64, [.f (17 / 2), .f (17 / 2)]⟩ ∧
    ((demoTask true).fit (demoFitted true) 0).1.obj.coef = some ⟨[1, 2], .f64, [.f 0, .f 0]⟩ ∧
    ((demoTask true).fit (demoFitted true) 0).1.obj.intercept = (demoFitted true).obj.intercept ∧
    labelOf (demoFitted true) [-1, 0] = some 0 ∧
    labelOf ((demoTask true).fit (demoFitted true) 0).1 [-1, 0] = none := by
  decide +kernel

example (classifier : Bool) : ∃ o', (demoTask classifier).fit demoNew 1 = (o', .ok ()) ∧
    (demoTask classifier).cls.fit demoNew.obj 1 = .ok o'.obj := by
  have h : ((demoTask classifier).fit demoNew 1).2 = .ok () := by
    cases classifier <;> decide +kernel
  exact ⟨((demoTask classifier).fit demoNew 1).1, Prod.ext rfl h,
    (C124_agrees (demoTask classifier) demoNew _ 1 rfl rfl).1 (Prod.ext rfl h)⟩

example : (demoTask true).fit (demoFitted true) 3 = (demoFitted true, .error .valueError) :=
  C124_rejected _ _ _ _ rfl

/-- The regressor keeps its predictions, and so does the classifier on data with the same classes. -/
example : ∃ o', (demoTask false).fit (demoFitted false) 2 = (o', .error .valueError) ∧
    PredictAlike (demoFitted false) o' := by
  have h : ((demoTask false).fit (demoFitted false) 2).2 = .error .valueError := by decide +kernel
  refine ⟨((demoTask false).fit (demoFitted false) 2).1, Prod.ext rfl h,
    C124_kept_partial _ _ _ 2 _ (Or.inl rfl) ?_ (Prod.ext rfl h)⟩
  exact fun regs => ⟨fun w => ⟨_, rfl⟩, fun w i => ⟨_, rfl⟩⟩

example : ∃ o', (demoTask true).fit (demoFitted true) 4 = (o', .error .valueError) ∧
    PredictAlike (demoFitted true) o' := by
  have h : ((demoTask true).fit (demoFitted true) 4).2 = .error .valueError := by decide +kernel
  refine ⟨((demoTask true).fit (demoFitted true) 4).1, Prod.ext rfl h,
    C124_kept_partial _ _ _ 4 _ (Or.inr (by decide +kernel)) ?_ (Prod.ext rfl h)⟩
  exact fun regs => ⟨fun w => ⟨_, rfl⟩, fun w i => ⟨_, rfl⟩⟩

/-- The coefficients lost in `C124_constant_negation` were lost in the refit of the intercept. -/
example : ∃ regs w, ((demoTask true).fit (demoFitted true) 0).1.obj.coef = some w ∧
    ((((demoTask true).cls.env 0 regs).fitIntercept w = .error .valueError) ∨
      ∃ i, ((demoTask true).cls.env 0 regs).fitIntercept w = .ok i ∧
        ((demoTask true).cls.env 0 regs).post w i = .error .valueError ∧
        ((demoTask true).fit (demoFitted true) 0).1.obj.intercept = some i) :=
  C124_late (demoTask true) (demoFitted true) _ 0 .valueError
    (Prod.ext rfl C124_constant_negation.1) (Or.inl (by decide +kernel))

/-- A new estimator fails on data set 2 and is then fitted on data set 1: with the grid 2, 1 of data
    set 2. -/
example : ∃ o2, (demoTask true).fit ((demoTask true).fit demoNew 2).1 1 = (o2, .ok ()) ∧
    o2.obj.regParams = some [2, 1] ∧ (demoFitted true).obj.regParams = some [1, 1 / 2] := by
  have h1 : ((demoTask true).fit demoNew 2).2 = .error .valueError := by decide +kernel
  have h2 : ((demoTask true).fit ((demoTask true).fit demoNew 2).1 1).2 = .ok () := by decide +kernel
  refine ⟨_, Prod.ext rfl h2, ?_, by decide +kernel⟩
  exact (C124_grid (demoTask true) demoNew ((demoTask true).fit demoNew 2).1 _ 2 1 .valueError rfl rfl rfl
    rfl rfl rfl (Prod.ext rfl h1) (Prod.ext rfl h2)).trans (by decide +kernel)

end Verif.Props
