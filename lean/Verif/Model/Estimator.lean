import Verif.Model.Fit
/-!
Model of a UoI estimator as an object with attributes that is fitted several times
(`/repo/src/pyuoi/linear_model/base.py:85-122,179-445`), and of where its bootstraps get their
randomness from.
-/
namespace Verif.Estimator
open Verif.Py Verif.Fit Verif.Intersection

/-- A class of estimators with its constructor arguments, applied to data sets `D` (already
    preprocessed by `_pre_fit`).  What is not pyuoi's own code is open. -/
structure Cls (D K G S M RP : Type) where
  /-- Whether `get_reg_params` keeps the grid on the object and reuses it: `self.lambdas` of
      `UoI_ElasticNet` (`elasticnet.py:162`) and `UoI_Poisson` (`poisson.py:528`), `self.Cs` of
      `UoI_L1Logistic` (`logistic.py:155`); not for `UoI_Lasso` (`lasso.py:245-254`). -/
  caches : Bool
  /-- The grid computed from the data. -/
  grid : D → List RP
  /-- The rest of what `fit` uses on this data set, given the grid. -/
  env : D → List RP → Env K G S M RP
  /-- `np.unique(y).size == 1` (`base.py:214`). -/
  constY : D → Bool
  /-- Random generator and selection solver after a completed fit: left open. -/
  after : D → G → S → G × S

/-- An estimator object: attributes that may not exist yet are `none`. -/
structure Obj (K G S RP : Type) where
  /-- `self.lambdas` or `self.Cs`. -/
  cache : Option (List RP)
  regParams : Option (List RP)
  supports : Option BArr
  estimates : Option (NDArr K)
  scores : Option (NDArr K)
  rpMax : Option (List Nat)
  coef : Option (NDArr K)
  intercept : Option (NDArr K)
  /-- `self.random_state`. -/
  gen : G
  /-- `self._selection_lm`. -/
  sel : S
  deriving DecidableEq

variable {D K G S M RP : Type}

/-- A newly constructed estimator (`base.py:85-122`; the grid is computed at the first fit). -/
def Obj.new (g : G) (s : S) : Obj K G S RP :=
  ⟨none, none, none, none, none, none, none, none, g, s⟩

/-- `get_reg_params`: the grid used and the kept grid afterwards. -/
def Cls.getRegParams (c : Cls D K G S M RP) (cache : Option (List RP)) (d : D) :
    List RP × Option (List RP) :=
  if c.caches then
    match cache with
    | some l => (l, some l)
    | none => (c.grid d, some (c.grid d))
  else (c.grid d, cache)

/-- `np.zeros((output_dim, n_features))` (`base.py:215`). -/
def zeros [Zero K] (r p : Nat) : NDArr K := ⟨[r, p], .f64, List.replicate (r * p) (.f 0)⟩

/-- `fit(X, y)` on an object, serially (`base.py:179-445`): a constant response only sets `coef_`
    and `intercept_` (`base.py:214-218`).  An exception leaves no modelled object: theorems about
    fits start from arbitrary objects, so from whatever an interrupted fit left behind. -/
def Cls.fit [LinearOrder K] [Field K] (c : Cls D K G S M RP) (o : Obj K G S RP) (d : D) :
    Except PyErr (Obj K G S RP) :=
  if c.constY d then
    let env := c.env d []
    match env.fitIntercept (zeros env.outDim env.nFeat) with
    | .error e => .error e
    | .ok i =>
      match env.post (zeros env.outDim env.nFeat) i with
      | .error e => .error e
      | .ok ci => .ok { o with coef := some ci.1, intercept := some ci.2 }
  else
    let rc := c.getRegParams o.cache d
    match (Fit.fit (c.env d rc.1) 1 0 o.gen o.sel).outcome with
    | some (.ok st) => .ok
        { cache := rc.2
          regParams := some rc.1
          supports := some st.supports
          estimates := some st.estimates
          scores := some st.scores
          rpMax := some st.rpMax
          coef := some st.coef
          intercept := some st.intercept
          gen := (c.after d o.gen o.sel).1
          sel := (c.after d o.gen o.sel).2 }
    | some (.error e) => .error e
    | none => .error .mpiError

/-- Fitting one data set after the other. -/
def Cls.fits [LinearOrder K] [Field K] (c : Cls D K G S M RP) :
    Obj K G S RP → List D → Except PyErr (Obj K G S RP)
  | o, [] => .ok o
  | o, d :: ds =>
    match c.fit o d with
    | .error e => .error e
    | .ok o' => c.fits o' ds

/-! ### Seeds -/

/-- The values users pass as `random_state`. -/
inductive Seed (G : Type) where
  /-- A Python `int` (`isinstance(random_state, int)`). -/
  | pyInt (k : Nat)
  /-- A NumPy integer, e.g. an element of an integer array: not an instance of `int`. -/
  | npInt (k : Nat)
  /-- A `RandomState`. -/
  | generator (g : G)

/-- What is stored as `self.random_state`. -/
inductive Stored (G : Type) where
  | generator (g : G)
  | number (k : Nat)

/-- The constructor (`base.py:104-114`); `rank` is 0 without a communicator, `seed` is
    `np.random.RandomState`. -/
def store {G : Type} (seed : Nat → G) (rank : Nat) : Seed G → Stored G
  | .pyInt k => .generator (seed (k + rank))
  | .npInt k => .number k
  | .generator g => .generator g

/-- `train_test_split(..., random_state=self.random_state)` (`base.py:251-254,342-345`): scikit-learn's
    `check_random_state` uses a generator as it is and makes a new one from a number.  `draw` is the
    draw itself. -/
def drawStored {G : Type} (seed : Nat → G) (draw : Bool → G → Except PyErr (Split × G)) (est : Bool) :
    Stored G → Except PyErr (Split × Stored G)
  | .generator g =>
    match draw est g with
    | .error e => .error e
    | .ok (sp, g') => .ok (sp, .generator g')
  | .number k =>
    match draw est (seed k) with
    | .error e => .error e
    | .ok (sp, _) => .ok (sp, .number k)

/-- An estimator's environment with the stored random state in the place of the generator. -/
def withSeeds {G : Type} (seed : Nat → G) (env : Env K G S M RP) : Env K (Stored G) S M RP :=
  { env with draw := drawStored seed env.draw }

end Verif.Estimator
