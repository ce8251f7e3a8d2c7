import Verif.Model.Scores
/-!
Model of the constructors of the four UoI estimators, of the wrapper of the pycasso solver and of
scikit-learn's `get_params`/`set_params` on them (`/repo/src/pyuoi/linear_model/base.py`, `lasso.py`,
`elasticnet.py`, `logistic.py`, `poisson.py`).
-/
namespace Verif.Ctors
open Verif.Scores

/-- The Python values passed to and stored by the constructors.  Simplification: a random state is
    represented by its seed, a communicator by the rank and size it reports, other objects by a number. -/
inductive Val where
  | none
  | bool (b : Bool)
  | int (i : Int)
  | float (q : ℚ)
  | inf
  | str (s : String)
  | floats (l : List ℚ)
  | rng (seed : Option Int)
  | comm (rank size : Nat)
  | obj (k : Nat)
  deriving DecidableEq

/-- Keyword arguments, or a dictionary of attributes; the first entry of a name counts. -/
abbrev Kw := List (String × Val)

/-- The value of a parameter: the argument given, otherwise the default of the signature. -/
def arg (g defaults : Kw) (k : String) : Val := (g.lookup k).getD ((defaults.lookup k).getD .none)

/-- A call with an unknown keyword is a `TypeError`. -/
def checkKw (g defaults : Kw) : Except PyErr Unit :=
  if ∀ p ∈ g, p.1 ∈ defaults.map (·.1) then .ok () else .error .typeError

/-- Keyword arguments of the form `name=name`. -/
def forward (names : List String) (v : String → Val) : Kw := names.map fun k => (k, v k)

/-- A sub-estimator: its class and the keyword arguments it was made with. -/
structure Sub where
  cls : String
  kw : Kw
  deriving DecidableEq

/-- An estimator object: attributes (the property `estimation_score` included), `_estimation_target`,
    `_selection_lm` (missing if the constructor did not assign it) and `_estimation_lm`. -/
structure Obj where
  attrs : Kw
  target : Nat
  sel : Option Sub
  est : Sub

/-- What the constructors use that is modelled elsewhere or outside the package:
    `stability_selection_to_threshold` (C01 to C04), whether `pycasso` could be imported
    (`lasso.py:6-9`). -/
structure Ext where
  thresholds : Val → Val → Except PyErr Unit
  pycasso : Bool

/-- Signature of `AbstractUoILinearModel.__init__` (`base.py:84-88`). -/
def baseDefaults : Kw :=
  [("n_boots_sel", .int 24), ("n_boots_est", .int 24), ("selection_frac", .float (9/10)),
   ("estimation_frac", .float (9/10)), ("stability_selection", .float 1), ("fit_intercept", .bool true),
   ("standardize", .bool true), ("shared_support", .bool true), ("max_iter", .none), ("tol", .none),
   ("random_state", .none), ("comm", .none), ("logger", .none)]

/-- The random state that is stored (`base.py:103-112`). -/
def storedRng (r comm : Val) : Val :=
  match r, comm with
  | .int i, .comm rank _ => .rng (some (i + rank))
  | .int i, _ => .rng (some i)
  | .none, _ => .rng none
  | r, _ => r

/-- `AbstractUoILinearModel.__init__` (`base.py:84-121`): the attributes. -/
def baseInit (ext : Ext) (g : Kw) : Except PyErr Kw := do
  checkKw g baseDefaults
  let v := arg g baseDefaults
  ext.thresholds (v "stability_selection") (v "n_boots_sel")
  pure (("random_state", storedRng (v "random_state") (v "comm")) ::
    forward ["selection_frac", "estimation_frac", "n_boots_sel", "n_boots_est", "stability_selection",
      "fit_intercept", "standardize", "shared_support", "max_iter", "tol", "comm"] v)

/-- Python's `estimation_score not in ...` and `estimation_target` checks (`base.py:520-534`,
    `701-715`), for values of any type: only strings can be valid. -/
def checkTarget (c : Cls) (score target : Val) : Except PyErr Nat :=
  match score with
  | .str s =>
    match target with
    | .none => ctorTarget c s none
    | .str t => ctorTarget c s (some t)
    | _ => .error .valueError
  | _ => .error .valueError

/-- Signature of `AbstractUoILinearRegressor.__init__` (`base.py:501-506`). -/
def linearDefaults : Kw :=
  [("n_boots_sel", .int 24), ("n_boots_est", .int 24), ("selection_frac", .float (9/10)),
   ("estimation_frac", .float (9/10)), ("stability_selection", .float 1), ("estimation_score", .str "r2"),
   ("estimation_target", .none), ("copy_X", .bool true), ("fit_intercept", .bool true),
   ("standardize", .bool true), ("random_state", .none), ("max_iter", .none), ("tol", .none),
   ("comm", .none), ("logger", .none)]

/-- `AbstractUoILinearRegressor.__init__` (`base.py:501-535`): attributes and target. -/
def linearInit (ext : Ext) (c : Cls) (g : Kw) : Except PyErr (Kw × Nat) := do
  checkKw g linearDefaults
  let v := arg g linearDefaults
  let a ← baseInit ext (forward ["n_boots_sel", "n_boots_est", "selection_frac", "estimation_frac",
    "stability_selection", "fit_intercept", "standardize", "max_iter", "tol", "random_state", "comm",
    "logger"] v)
  let t ← checkTarget c (v "estimation_score") (v "estimation_target")
  pure (("estimation_score", v "estimation_score") :: a, t)

/-- Signature of `AbstractUoIGeneralizedLinearRegressor.__init__` (`base.py:680-685`). -/
def glmDefaults : Kw :=
  [("n_boots_sel", .int 24), ("n_boots_est", .int 24), ("selection_frac", .float (9/10)),
   ("estimation_frac", .float (9/10)), ("stability_selection", .float 1), ("estimation_score", .str "acc"),
   ("estimation_target", .none), ("copy_X", .bool true), ("fit_intercept", .bool true),
   ("standardize", .bool true), ("random_state", .none), ("max_iter", .none), ("tol", .none),
   ("shared_support", .bool true), ("comm", .none), ("logger", .none)]

/-- `AbstractUoIGeneralizedLinearRegressor.__init__` (`base.py:680-715`). -/
def glmInit (ext : Ext) (c : Cls) (g : Kw) : Except PyErr (Kw × Nat) := do
  checkKw g glmDefaults
  let v := arg g glmDefaults
  let a ← baseInit ext (forward ["n_boots_sel", "n_boots_est", "selection_frac", "estimation_frac",
    "stability_selection", "random_state", "fit_intercept", "standardize", "shared_support", "max_iter",
    "tol", "comm", "logger"] v)
  let t ← checkTarget c (v "estimation_score") (v "estimation_target")
  pure (("estimation_score", v "estimation_score") :: a, t)

/-! ### `UoI_Lasso` -/

/-- Signature (`lasso.py:203-208`). -/
def lassoDefaults : Kw :=
  [("n_boots_sel", .int 24), ("n_boots_est", .int 24), ("selection_frac", .float (9/10)),
   ("estimation_frac", .float (9/10)), ("n_lambdas", .int 48), ("stability_selection", .float 1),
   ("estimation_score", .str "r2"), ("estimation_target", .none), ("eps", .float (1/1000)),
   ("warm_start", .bool true), ("copy_X", .bool true), ("fit_intercept", .bool true),
   ("standardize", .bool true), ("max_iter", .int 1000), ("tol", .float (1/10000)),
   ("random_state", .none), ("comm", .none), ("logger", .none), ("solver", .str "cd")]

/-- `PycLasso.__init__` (`lasso.py:38-53`) as far as it can raise. -/
def pycCtor (fitIntercept : Val) : Except PyErr Unit :=
  if fitIntercept = .bool false then .error .valueError else .ok ()

/-- The selection model (`lasso.py:230-243`): not assigned for any other `solver`. -/
def lassoSel (ext : Ext) (v : String → Val) : Except PyErr (Option Sub) :=
  if v "solver" = .str "cd" then
    .ok (some ⟨"Lasso", forward ["max_iter", "tol", "warm_start", "random_state", "fit_intercept"] v⟩)
  else if v "solver" = .str "pyc" then
    if ext.pycasso then do
      pycCtor (v "fit_intercept")
      pure (some ⟨"PycLasso", forward ["fit_intercept", "max_iter", "tol"] v⟩)
    else .error .importError
  else .ok none

/-- `UoI_Lasso.__init__` (`lasso.py:203-245`). -/
def lassoCtor (ext : Ext) (g : Kw) : Except PyErr Obj := do
  checkKw g lassoDefaults
  let v := arg g lassoDefaults
  let r ← linearInit ext .lasso (forward ["n_boots_sel", "n_boots_est", "selection_frac",
    "estimation_frac", "estimation_target", "stability_selection", "copy_X", "fit_intercept",
    "standardize", "random_state", "comm", "estimation_score", "max_iter", "tol", "logger"] v)
  let sel ← lassoSel ext v
  pure ⟨forward ["tol", "solver", "eps", "n_lambdas"] v ++ r.1, r.2, sel,
    ⟨"LinearRegression", forward ["fit_intercept"] v⟩⟩

/-! ### `UoI_ElasticNet` -/

/-- Signature (`elasticnet.py:91-98`). -/
def enetDefaults : Kw :=
  [("n_boots_sel", .int 24), ("n_boots_est", .int 24), ("selection_frac", .float (9/10)),
   ("estimation_frac", .float (9/10)), ("n_lambdas", .int 48), ("alphas", .floats [1/2]),
   ("stability_selection", .float 1), ("estimation_score", .str "r2"), ("estimation_target", .none),
   ("warm_start", .bool true), ("eps", .float (1/1000)), ("copy_X", .bool true),
   ("fit_intercept", .bool true), ("standardize", .bool true), ("max_iter", .int 1000),
   ("tol", .float (1/10000)), ("random_state", .none), ("comm", .none), ("logger", .none)]

/-- `len(alphas)`; a `TypeError` for values without a length. -/
def lenOf : Val → Except PyErr Nat
  | .floats l => .ok l.length
  | .str s => .ok s.length
  | _ => .error .typeError

/-- `UoI_ElasticNet.__init__` (`elasticnet.py:91-129`). -/
def enetCtor (ext : Ext) (g : Kw) : Except PyErr Obj := do
  checkKw g enetDefaults
  let v := arg g enetDefaults
  let r ← linearInit ext .elasticNet (forward ["n_boots_sel", "n_boots_est", "selection_frac",
    "estimation_frac", "stability_selection", "estimation_score", "estimation_target", "copy_X",
    "fit_intercept", "standardize", "random_state", "comm", "max_iter", "tol", "logger"] v)
  let n ← lenOf (v "alphas")
  pure ⟨("lambdas", .none) :: ("n_alphas", .int n) ::
      forward ["eps", "warm_start", "alphas", "n_lambdas"] v ++ r.1, r.2,
    some ⟨"ElasticNet", forward ["fit_intercept", "max_iter", "tol", "copy_X", "warm_start",
      "random_state"] v⟩, ⟨"LinearRegression", forward ["fit_intercept"] v⟩⟩

/-! ### `UoI_L1Logistic` -/

/-- Signature (`logistic.py:111-117`). -/
def logitDefaults : Kw :=
  [("n_boots_sel", .int 24), ("n_boots_est", .int 24), ("selection_frac", .float (9/10)),
   ("estimation_frac", .float (9/10)), ("n_C", .int 48), ("stability_selection", .float 1),
   ("estimation_score", .str "acc"), ("estimation_target", .none), ("multi_class", .str "auto"),
   ("shared_support", .bool true), ("warm_start", .bool false), ("eps", .float (1/100000)),
   ("fit_intercept", .bool true), ("standardize", .bool true), ("max_iter", .int 10000),
   ("tol", .float (1/1000)), ("random_state", .none), ("comm", .none), ("logger", .none)]

/-- `MaskedCoefLogisticRegression.__init__` (`logistic.py:330-343`) as far as it can raise. -/
def maskedCtor (multiClass : Val) : Except PyErr Unit :=
  if multiClass = .str "multinomial" ∨ multiClass = .str "auto" then .ok () else .error .valueError

/-- `UoI_L1Logistic.__init__` (`logistic.py:111-151`). -/
def logitCtor (ext : Ext) (g : Kw) : Except PyErr Obj := do
  checkKw g logitDefaults
  let v := arg g logitDefaults
  let r ← glmInit ext .logistic (forward ["n_boots_sel", "n_boots_est", "selection_frac",
    "estimation_frac", "stability_selection", "estimation_score", "estimation_target", "random_state",
    "fit_intercept", "standardize", "shared_support", "comm", "logger"] v)
  maskedCtor (v "multi_class")
  pure ⟨("solver", .str "lbfgs") :: ("Cs", .none) :: forward ["tol", "eps", "multi_class", "n_C"] v ++ r.1,
    r.2,
    some ⟨"MaskedCoefLogisticRegression", ("penalty", .str "l1") ::
      forward ["max_iter", "warm_start", "multi_class", "fit_intercept", "tol"] v⟩,
    ⟨"MaskedCoefLogisticRegression", ("C", .inf) ::
      forward ["multi_class", "fit_intercept", "max_iter", "tol"] v⟩⟩

/-! ### `UoI_Poisson` -/

/-- Signature (`poisson.py:462-469`). -/
def poisDefaults : Kw :=
  [("n_boots_sel", .int 24), ("n_boots_est", .int 24), ("n_lambdas", .int 48), ("alphas", .floats [1]),
   ("selection_frac", .float (8/10)), ("estimation_frac", .float (8/10)),
   ("stability_selection", .float 1), ("estimation_score", .str "log"), ("estimation_target", .none),
   ("solver", .str "lbfgs"), ("warm_start", .bool true), ("eps", .float (1/1000)),
   ("tol", .float (1/100000)), ("copy_X", .bool true), ("fit_intercept", .bool true),
   ("standardize", .bool true), ("max_iter", .int 1000), ("random_state", .none), ("comm", .none),
   ("logger", .none)]

/-- `UoI_Poisson.__init__` (`poisson.py:462-504`). -/
def poisCtor (ext : Ext) (g : Kw) : Except PyErr Obj := do
  checkKw g poisDefaults
  let v := arg g poisDefaults
  let r ← glmInit ext .poisson (forward ["n_boots_sel", "n_boots_est", "selection_frac",
    "estimation_frac", "stability_selection", "estimation_score", "estimation_target", "copy_X",
    "fit_intercept", "random_state", "comm", "logger"] v)
  let n ← lenOf (v "alphas")
  pure ⟨("lambdas", .none) :: ("n_alphas", .int n) ::
      forward ["eps", "warm_start", "alphas", "n_lambdas"] v ++ r.1, r.2,
    some ⟨"Poisson", forward ["fit_intercept", "standardize", "max_iter", "tol", "warm_start", "solver"] v⟩,
    ⟨"Poisson", ("alpha", .float 0) :: ("l1_ratio", .float 1) :: ("warm_start", .bool false) ::
      forward ["fit_intercept", "max_iter", "tol", "solver"] v⟩⟩

/-! ### All four, and scikit-learn's parameter protocol -/

/-- The signatures. -/
def defaults : Cls → Kw
  | .lasso => lassoDefaults
  | .elasticNet => enetDefaults
  | .logistic => logitDefaults
  | .poisson => poisDefaults

/-- The constructors. -/
def ctor (ext : Ext) : Cls → Kw → Except PyErr Obj
  | .lasso => lassoCtor ext
  | .elasticNet => enetCtor ext
  | .logistic => logitCtor ext
  | .poisson => poisCtor ext

/-- `getattr(self, name)` (attributes and the property `estimation_score`, `base.py:571-573`,
    `737-739`); none of the base classes defines a class attribute named like a constructor parameter. -/
def Obj.getattr (o : Obj) (k : String) : Except PyErr Val :=
  match o.attrs.lookup k with
  | some v => .ok v
  | none => .error .attributeError

/-- `BaseEstimator.get_params` of scikit-learn (required in version 0.24 or newer by
    `/repo/requirements.txt:3`), inherited through `lasso.py:118`, `elasticnet.py:10`,
    `logistic.py:24`, `poisson.py:379`: `getattr` for every parameter of the constructor, in
    alphabetical order.  Simplification: signature order (the first missing attribute raises anyway). -/
def getParams (c : Cls) (o : Obj) : Except PyErr Kw :=
  (defaults c).mapM fun p => do
    let v ← o.getattr p.1
    pure (p.1, v)

/-- `BaseEstimator.set_params`: without arguments it returns at once; otherwise it calls `get_params`
    and then checks and assigns each argument. -/
def setParams (c : Cls) (o : Obj) (kw : Kw) : Except PyErr Obj :=
  if kw = [] then .ok o
  else do
    let ps ← getParams c o
    if ∀ p ∈ kw, p.1 ∈ ps.map (·.1) then pure { o with attrs := kw.reverse ++ o.attrs }
    else .error .valueError

/-- The access to the selection model at the start of the selection sweep (`base.py:472-481`,
    `lasso.py:257-270`). -/
def Obj.selectionModel (o : Obj) : Except PyErr Sub :=
  match o.sel with
  | some s => .ok s
  | none => .error .attributeError

/-! ### `PycLasso` -/

/-- A `PycLasso` object (`lasso.py:38-53`, `111-114`): parameters, and coefficients and intercepts for
    each penalty once fitted. -/
structure Pyc (K : Type) where
  alphas : Option (List K)
  fitIntercept : Bool
  maxIter : Int
  tol : K
  fitted : Option (List (List K) × List K)

/-- `PycLasso.__init__` (`lasso.py:38-53`). -/
def Pyc.new {K : Type} (alphas : Option (List K)) (fitIntercept : Bool) (maxIter : Int) (tol : K) :
    Except PyErr (Pyc K) :=
  if fitIntercept = false then .error .valueError
  else .ok ⟨alphas, fitIntercept, maxIter, tol, none⟩

/-- A keyword of `PycLasso.set_params`. -/
inductive PycArg (K : Type) where
  | alphas (l : List K)
  | fitIntercept (b : Bool)
  | maxIter (n : Int)
  | tol (t : K)
  | other (name : String)

/-- `PycLasso.set_params` (`lasso.py:55-63`): the keywords are assigned one after another; the first
    invalid one raises, with the earlier ones assigned.  Returns the object and the exception. -/
def Pyc.setParams {K : Type} (o : Pyc K) : List (PycArg K) → Pyc K × Option PyErr
  | [] => (o, none)
  | .alphas l :: r => Pyc.setParams { o with alphas := some l } r
  | .fitIntercept b :: r => Pyc.setParams { o with fitIntercept := b } r
  | .maxIter n :: r => Pyc.setParams { o with maxIter := n } r
  | .tol _ :: _ => (o, some .valueError)
  | .other _ :: _ => (o, some .valueError)

/-- `PycLasso.fit` (`lasso.py:83-115`).  `solve` is `pycasso.Solver(...).train()` and its results
    `beta` and `intercept`, given data, penalties, `max_ite` and `prec`.  Raising `Exception` is
    represented by `valueError`. -/
def Pyc.fit {K D : Type} (solve : D → List K → Int → K → List (List K) × List K) (o : Pyc K) (d : D) :
    Except PyErr (Pyc K) :=
  match o.alphas with
  | none => .error .valueError
  | some l =>
    if o.fitIntercept = false then .error .valueError
    else .ok { o with fitted := some (solve d l o.maxIter o.tol) }

/-- `PycLasso.predict` (`lasso.py:65-81`): `X @ coef.T + intercept`, a row per sample and a column per
    penalty. -/
def Pyc.predict {K : Type} [Add K] [Mul K] [Zero K] (o : Pyc K) (X : List (List K)) :
    Except PyErr (List (List K)) :=
  match o.fitted with
  | none => .error .notFitted
  | some (coef, b) => .ok (X.map fun x =>
      List.zipWith (fun c i => (List.zipWith (· * ·) x c).foldl (· + ·) 0 + i) coef b)

/-- `UoI_Lasso.uoi_selection_sweep` with `solver='pyc'` (`lasso.py:257-267`). -/
def pycSweep {K D : Type} (solve : D → List K → Int → K → List (List K) × List K) (o : Pyc K) (d : D)
    (regParams : List K) : Except PyErr (List (List K)) :=
  match o.setParams [.alphas regParams] with
  | (_, some e) => .error e
  | (o, none) =>
    match o.fit solve d with
    | .error e => .error e
    | .ok o =>
      match o.fitted with
      | some r => .ok r.1
      | none => .error .attributeError

end Verif.Ctors
