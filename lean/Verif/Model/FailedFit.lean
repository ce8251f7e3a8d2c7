import Verif.Model.Estimator
/-!
Model of a call of `fit` of a UoI linear model that may end with an exception, as the sequence of
assignments to attributes it makes (`/repo/src/pyuoi/linear_model/base.py:179-445`,
`logistic.py:200-212`).  The serial fit.  The states of the random generator and of the selection solver
after a call are open (`Cls.after`), also for calls that fail.
-/
namespace Verif.FailedFit
open Verif.Py Verif.Fit Verif.Intersection Verif.Estimator

/-- A class of estimators (`Verif.Estimator.Cls`) with the checks that come first. -/
structure Task (D L K G S M RP : Type) where
  cls : Cls D K G S M RP
  /-- `super()._pre_fit(X, y)` (`base.py:141-154,537-553`; `logistic.py:201`): sparse `X` that would have to
      be centred, non-finite `X` for the scaler, a response with several columns. -/
  pre : D → Except PyErr Unit
  /-- For `UoI_L1Logistic` the classes of the response (`logistic.py:202-204`); `none` for the other
      models, which have no `classes_`. -/
  labels : D → Option (List L)
  /-- `check_X_y` (`base.py:206-207`). -/
  check : D → Except PyErr Unit

/-- An estimator object: the attributes of `Verif.Estimator.Obj` and `classes_`. -/
structure Est (L K G S RP : Type) where
  obj : Obj K G S RP
  /-- `self.classes_` (`logistic.py:204`). -/
  classes : Option (List L)
  deriving DecidableEq

variable {D L K G S M RP α : Type}

/-- A statement that may raise, executed when the object is `o` (all of `base.py:204-443`): after an
    exception the object stays as it is. -/
def Est.then (o : Est L K G S RP) (r : Except PyErr α) (k : α → Est L K G S RP × Except PyErr Unit) :
    Est L K G S RP × Except PyErr Unit :=
  match r with
  | .error e => (o, .error e)
  | .ok a => k a

/-- The outcome of a serial program, which enters no collective (`base.py:226-230`: `size = 1`). -/
def run (p : Prog K α) : Except PyErr α := p.outcome.getD (.error .mpiError)

/-- `self.coef_ = coef; self._fit_intercept(X, y); self._post_fit(X, y)` (`base.py:215-217,439-443`).
    Simplified: `_post_fit` changes both attributes or raises before it changes one. -/
def finish (env : Env K G S M RP) (o : Est L K G S RP) (coef : NDArr K) :
    Est L K G S RP × Except PyErr Unit :=
  let o : Est L K G S RP := { o with obj := { o.obj with coef := some coef } }
  o.then (env.fitIntercept coef) fun i =>
  let o : Est L K G S RP := { o with obj := { o.obj with intercept := some i } }
  o.then (env.post coef i) fun ci =>
  ({ o with obj := { o.obj with coef := some ci.1, intercept := some ci.2 } }, .ok ())

/-- The chosen candidates, `np.argmax(self.scores_, axis=1)` (`base.py:434`). -/
def chosen [LinearOrder K] (env : Env K G S M RP) (nSup : Nat) (scores : NDArr K) :
    Except PyErr (List Nat) :=
  if nSup = 0 then .error .valueError
  else mapE (fun b =>
    argmax ((List.range nSup).map fun i => env.toF (scores.data.getD (b * nSup + i) .undef)))
    (List.range env.nBootsEst)

/-- `np.median(best_estimates, axis=0).reshape(output_dim, n_features)` (`base.py:437-441`). -/
def bagged [LinearOrder K] [Field K] (env : Env K G S M RP) (nSup : Nat) (estimates : NDArr K)
    (rpMax : List Nat) : NDArr K :=
  ⟨[env.outDim, env.nFeat], .f64, ((List.range env.nCoef).map fun j =>
    median env.nan ((List.range env.nBootsEst).map fun b =>
      env.toF (estimates.data.getD ((b * nSup + rpMax.getD b 0) * env.nCoef + j) .undef))).map .f⟩

/-- The estimation module from `n_supports_` on (`base.py:324-443`), with the bootstraps `q`. -/
def estimate [LinearOrder K] [Field K] (env : Env K G S M RP) (o : Est L K G S RP) (sup : BArr)
    (nSup : Nat) (boots : List Split) : Est L K G S RP × Except PyErr Unit :=
  o.then (mapE (estTask env sup nSup (List.range env.nBootsEst) boots)
    (List.range (env.nBootsEst * nSup))) fun res =>
  o.then (reshape (estArr env res) [env.nBootsEst, nSup, env.nCoef]) fun e =>
  let o : Est L K G S RP := { o with obj := { o.obj with estimates := some e } }
  o.then (reshape (scoreArr res) [env.nBootsEst, nSup]) fun sc =>
  let o : Est L K G S RP := { o with obj := { o.obj with scores := some sc } }
  o.then (chosen env nSup sc) fun rp =>
  let o : Est L K G S RP := { o with obj := { o.obj with rpMax := some rp } }
  finish env o (bagged env nSup e rp)

/-- The selection module and what follows (`base.py:222-443`), given the grid: `g` and `s` are the random
    generator and the selection solver at the beginning. -/
def select [LinearOrder K] [Field K] (env : Env K G S M RP) (o : Est L K G S RP) (g : G) (s : S) :
    Est L K G S RP × Except PyErr Unit :=
  o.then (run (drawBoots env 1 0 false env.nBootsSel g)) fun p =>
  o.then (run (selection env 1 0 p.1 s)) fun sup =>
  let o : Est L K G S RP := { o with obj := { o.obj with supports := some sup } }
  o.then (shape0 sup) fun nSup =>
  o.then (run (drawBoots env 1 0 true env.nBootsEst p.2)) fun q =>
  estimate env o sup nSup q.1

/-- `self.classes_ = le.classes_` (`logistic.py:204`), for the classifier only. -/
def Est.relabel (o : Est L K G S RP) : Option (List L) → Est L K G S RP
  | some l => { o with classes := some l }
  | none => o

/-- `fit(X, y)` (`base.py:179-445`): the object afterwards, and whether the call returned or raised. -/
def Task.fit [LinearOrder K] [Field K] (c : Task D L K G S M RP) (o : Est L K G S RP) (d : D) :
    Est L K G S RP × Except PyErr Unit :=
  o.then (c.pre d) fun _ =>
  let o := o.relabel (c.labels d)
  o.then (c.check d) fun _ =>
  if c.cls.constY d then
    let env := c.cls.env d []
    finish env o (zeros env.outDim env.nFeat)
  else
    let rc := c.cls.getRegParams o.obj.cache d
    let t := c.cls.after d o.obj.gen o.obj.sel
    select (c.cls.env d rc.1)
      { o with obj := { o.obj with cache := rc.2, regParams := some rc.1, gen := t.1, sel := t.2 } }
      o.obj.gen o.obj.sel

end Verif.FailedFit
