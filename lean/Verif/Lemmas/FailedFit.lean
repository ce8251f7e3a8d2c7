import Verif.Spec.FailedFit
import Verif.Lemmas.ArraySplit
/-!
Lemmas about calls of `fit` that may fail.
-/
namespace Verif.FailedFit
open Verif.Py Verif.Fit Verif.Intersection Verif.Estimator Verif.Spec.FailedFit

variable {D L K G S M RP α β : Type}

theorem run_bind (p : Prog K α) (f : α → Prog K β) :
    run (p >>= f) = match run p with
      | .ok a => run (f a)
      | .error e => .error e := by
  cases p <;> rfl

theorem run_lift (x : Except PyErr α) : run (Prog.lift x : Prog K α) = x := by cases x <;> rfl

theorem run_ret (a : α) : run (Prog.ret a : Prog K α) = .ok a := rfl

/-- The outcome of a call as a value. -/
def result (r : Est L K G S RP × Except PyErr Unit) : Except PyErr (Obj K G S RP) :=
  match r.2 with
  | .ok _ => .ok r.1.obj
  | .error e => .error e

theorem result_then (o : Est L K G S RP) (r : Except PyErr α) (k) :
    result (o.then r k) = match r with
      | .ok a => result (k a)
      | .error e => .error e := by
  cases r <;> rfl

/-- The end of a fit, as a value. -/
theorem result_finish (env : Env K G S M RP) (o : Est L K G S RP) (w : NDArr K) :
    result (finish env o w) = match env.fitIntercept w with
      | .error e => .error e
      | .ok i => match env.post w i with
        | .error e => .error e
        | .ok ci => .ok { o.obj with coef := some ci.1, intercept := some ci.2 } := by
  simp only [finish, result_then]
  cases env.fitIntercept w with
  | error e => rfl
  | ok i =>
    simp only
    cases env.post w i <;> rfl

/-- `reduce` in stages. -/
theorem reduce_eq [LinearOrder K] [Field K] (env : Env K G S M RP) (nSup : Nat) (es sc : NDArr K) :
    reduce env nSup es sc = match reshape es [env.nBootsEst, nSup, env.nCoef] with
      | .error e => .error e
      | .ok es => match reshape sc [env.nBootsEst, nSup] with
        | .error e => .error e
        | .ok sc => match chosen env nSup sc with
          | .error e => .error e
          | .ok rp => match env.fitIntercept (bagged env nSup es rp) with
            | .error e => .error e
            | .ok i => .ok (es, sc, rp, bagged env nSup es rp, i) := by
  simp only [reduce, bind, Except.bind]
  cases reshape es [env.nBootsEst, nSup, env.nCoef] with
  | error e => rfl
  | ok es =>
    simp only
    cases reshape sc [env.nBootsEst, nSup] with
    | error e => rfl
    | ok sc =>
      simp only [chosen]
      by_cases h0 : nSup = 0
      · simp [h0]
      · simp only [h0, if_false]
        cases mapE (fun b => argmax ((List.range nSup).map fun i =>
            env.toF (sc.data.getD (b * nSup + i) .undef))) (List.range env.nBootsEst) with
        | error e => rfl
        | ok rp =>
          simp only [bagged]
          cases env.fitIntercept _ <;> rfl

theorem result_estimate [LinearOrder K] [Field K] (env : Env K G S M RP) (o : Est L K G S RP)
    (sup : BArr) (nSup : Nat) (boots : List Split) :
    result (estimate env o sup nSup boots) = match run (estimation env 1 0 sup nSup boots) with
      | .error e => .error e
      | .ok st => .ok { o.obj with
          estimates := some st.estimates, scores := some st.scores, rpMax := some st.rpMax,
          coef := some st.coef, intercept := some st.intercept } := by
  simp only [estimate, estimation, result_then, run_bind, run_lift, splitPart_one]
  simp only [show ¬ (1 : Nat) > 1 by decide, if_false]
  cases mapE (estTask env sup nSup (List.range env.nBootsEst) boots)
    (List.range (env.nBootsEst * nSup)) with
  | error e => rfl
  | ok res =>
    simp only [run_bind, run_lift, reduce_eq]
    cases reshape (estArr env res) [env.nBootsEst, nSup, env.nCoef] with
    | error e => rfl
    | ok es =>
      simp only
      cases reshape (scoreArr res) [env.nBootsEst, nSup] with
      | error e => rfl
      | ok sc =>
        simp only
        cases chosen env nSup sc with
        | error e => rfl
        | ok rp =>
          simp only [result_finish]
          cases env.fitIntercept (bagged env nSup es rp) with
          | error e => rfl
          | ok i =>
            simp only
            cases env.post (bagged env nSup es rp) i <;> rfl

theorem result_select [LinearOrder K] [Field K] (env : Env K G S M RP) (o : Est L K G S RP) (g : G)
    (s : S) :
    result (select env o g s) = match run (Fit.fit env 1 0 g s) with
      | .error e => .error e
      | .ok st => .ok { o.obj with
          supports := some st.supports, estimates := some st.estimates, scores := some st.scores,
          rpMax := some st.rpMax, coef := some st.coef, intercept := some st.intercept } := by
  simp only [select, Fit.fit, result_then, run_bind, run_lift]
  cases run (drawBoots env 1 0 false env.nBootsSel g) with
  | error e => rfl
  | ok p =>
    simp only
    cases run (selection env 1 0 p.1 s) with
    | error e => rfl
    | ok sup =>
      simp only
      cases shape0 sup with
      | error e => rfl
      | ok nSup =>
        simp only
        cases run (drawBoots env 1 0 true env.nBootsEst p.2) with
        | error e => rfl
        | ok q =>
          simp only [result_estimate]
          cases hst : run (estimation env 1 0 sup nSup q.1) with
          | error e => rfl
          | ok st =>
            have : st.supports = sup := by
              simp only [estimation, run_bind, run_lift, show ¬ (1 : Nat) > 1 by decide, if_false]
                at hst
              split at hst
              · split at hst
                · split at hst
                  · cases hst; rfl
                  · cases hst
                · cases hst
              · cases hst
            simp only [this]

/-- The failure happened after the coefficients were replaced. -/
def Late (env : Env K G S M RP) (o o' : Est L K G S RP) (e : PyErr) : Prop :=
  ∃ w, o'.obj.coef = some w ∧
    ((env.fitIntercept w = .error e ∧ o'.obj.intercept = o.obj.intercept) ∨
      ∃ i, env.fitIntercept w = .ok i ∧ env.post w i = .error e ∧ o'.obj.intercept = some i)

theorem finish_error {env : Env K G S M RP} {o o' : Est L K G S RP} {w : NDArr K} {e : PyErr}
    (h : finish env o w = (o', .error e)) : Late env o o' e ∧ o'.classes = o.classes ∧
      o'.obj.cache = o.obj.cache := by
  simp only [finish] at h
  cases hi : env.fitIntercept w with
  | error e' =>
    rw [hi] at h
    simp only [Est.then, Prod.mk.injEq, Except.error.injEq] at h
    obtain ⟨rfl, rfl⟩ := h
    exact ⟨⟨w, rfl, Or.inl ⟨hi, rfl⟩⟩, rfl, rfl⟩
  | ok i =>
    rw [hi] at h
    simp only [Est.then] at h
    cases hp : env.post w i with
    | error e' =>
      rw [hp] at h
      simp only [Prod.mk.injEq, Except.error.injEq] at h
      obtain ⟨rfl, rfl⟩ := h
      exact ⟨⟨w, rfl, Or.inr ⟨i, hi, hp, rfl⟩⟩, rfl, rfl⟩
    | ok ci => rw [hp] at h; simp at h

/-- What a failed call leaves. -/
def Outcome (env : Env K G S M RP) (o o' : Est L K G S RP) (e : PyErr) : Prop :=
  ((o'.obj.coef = o.obj.coef ∧ o'.obj.intercept = o.obj.intercept) ∨ Late env o o' e) ∧
    o'.classes = o.classes ∧ o'.obj.cache = o.obj.cache

theorem finish_outcome {env : Env K G S M RP} {o o' : Est L K G S RP} {w : NDArr K} {e : PyErr}
    (h : finish env o w = (o', .error e)) : Outcome env o o' e := by
  obtain ⟨h1, h2, h3⟩ := finish_error h
  exact ⟨Or.inr h1, h2, h3⟩

theorem then_outcome {env : Env K G S M RP} {o o1 o' : Est L K G S RP} {r : Except PyErr α} {k}
    {e : PyErr} (h : o1.then r k = (o', .error e))
    (h0 : o1.obj.coef = o.obj.coef ∧ o1.obj.intercept = o.obj.intercept ∧ o1.classes = o.classes ∧
      o1.obj.cache = o.obj.cache)
    (hk : ∀ a, k a = (o', .error e) → Outcome env o o' e) : Outcome env o o' e := by
  cases r with
  | error e' =>
    simp only [Est.then, Prod.mk.injEq] at h
    obtain ⟨rfl, -⟩ := h
    exact ⟨Or.inl ⟨h0.1, h0.2.1⟩, h0.2.2⟩
  | ok a => exact hk a h

theorem estimate_outcome [LinearOrder K] [Field K] {env : Env K G S M RP} {o o' : Est L K G S RP}
    {sup : BArr} {nSup : Nat} {boots : List Split} {e : PyErr}
    (h : estimate env o sup nSup boots = (o', .error e)) : Outcome env o o' e := by
  refine then_outcome h ⟨rfl, rfl, rfl, rfl⟩ fun res h => ?_
  refine then_outcome h ⟨rfl, rfl, rfl, rfl⟩ fun es h => ?_
  refine then_outcome h ⟨rfl, rfl, rfl, rfl⟩ fun sc h => ?_
  refine then_outcome h ⟨rfl, rfl, rfl, rfl⟩ fun rp h => ?_
  have h := finish_outcome h
  exact h

theorem select_outcome [LinearOrder K] [Field K] {env : Env K G S M RP} {o o' : Est L K G S RP}
    {g : G} {s : S} {e : PyErr} (h : select env o g s = (o', .error e)) : Outcome env o o' e := by
  refine then_outcome h ⟨rfl, rfl, rfl, rfl⟩ fun p h => ?_
  refine then_outcome h ⟨rfl, rfl, rfl, rfl⟩ fun sup h => ?_
  refine then_outcome h ⟨rfl, rfl, rfl, rfl⟩ fun nSup h => ?_
  refine then_outcome h ⟨rfl, rfl, rfl, rfl⟩ fun q h => ?_
  have h := estimate_outcome h
  exact h

/-- A failure of the end of the fit contradicts `EndsWell`. -/
theorem not_late {env : Env K G S M RP} (he : EndsWell env) {o o' : Est L K G S RP} {e : PyErr} :
    ¬ Late env o o' e := by
  rintro ⟨w, -, ⟨h, -⟩ | ⟨i, -, h, -⟩⟩
  · obtain ⟨i, hi⟩ := he.1 w
    rw [hi] at h; cases h
  · obtain ⟨r, hr⟩ := he.2 w i
    rw [hr] at h; cases h

theorem relabel_obj (o : Est L K G S RP) (l : Option (List L)) : (o.relabel l).obj = o.obj := by
  cases l <;> rfl

/-- Every failed call: either one of the checks failed, or a fit with the grid `regs`. -/
theorem fit_outcome [LinearOrder K] [Field K] {c : Task D L K G S M RP} {o o' : Est L K G S RP} {d : D}
    {e : PyErr} (h : c.fit o d = (o', .error e)) :
    o' = o ∧ c.pre d = .error e ∨
    o' = o.relabel (c.labels d) ∧ c.check d = .error e ∨
    (c.pre d = .ok () ∧ c.check d = .ok () ∧ c.cls.constY d = true ∧
      Outcome (c.cls.env d []) (o.relabel (c.labels d)) o' e) ∨
    (c.pre d = .ok () ∧ c.check d = .ok () ∧ c.cls.constY d = false ∧
      o'.obj.cache = (c.cls.getRegParams o.obj.cache d).2 ∧
      ((o'.obj.coef = o.obj.coef ∧ o'.obj.intercept = o.obj.intercept) ∨
        Late (c.cls.env d (c.cls.getRegParams o.obj.cache d).1) o o' e) ∧
      o'.classes = (o.relabel (c.labels d)).classes) := by
  rw [Task.fit] at h
  cases hp : c.pre d with
  | error e' =>
    rw [hp] at h
    simp only [Est.then, Prod.mk.injEq, Except.error.injEq] at h
    obtain ⟨rfl, rfl⟩ := h
    exact Or.inl ⟨rfl, rfl⟩
  | ok u =>
    rw [hp] at h
    simp only [Est.then] at h
    cases hc : c.check d with
    | error e' =>
      rw [hc] at h
      simp only [Prod.mk.injEq, Except.error.injEq] at h
      obtain ⟨rfl, rfl⟩ := h
      exact Or.inr (Or.inl ⟨rfl, rfl⟩)
    | ok u' =>
      rw [hc] at h
      simp only at h
      cases hy : c.cls.constY d with
      | true =>
        simp only [hy, if_true] at h
        exact Or.inr (Or.inr (Or.inl ⟨rfl, rfl, rfl, finish_outcome h⟩))
      | false =>
        simp only [hy, Bool.false_eq_true, if_false] at h
        obtain ⟨h1, h2, h3⟩ := select_outcome h
        simp only [relabel_obj, Late] at h1 h2 h3
        exact Or.inr (Or.inr (Or.inr ⟨rfl, rfl, rfl, h3, h1, h2⟩))

end Verif.FailedFit
