import Mathlib.Analysis.Real.Sqrt
import Mathlib.Order.ConditionallyCompleteLattice.Finset
import Mathlib.Algebra.BigOperators.Fin
import Verif.Py.Reduce
import Verif.Py.Ext
/-!
Model of `/repo/src/pyuoi/decomposition/NMF.py` and of `dissimilarity` in
`/repo/src/pyuoi/decomposition/utils.py`.  Matrices are functions of the indices or lists of rows over
the reals; the NMF solver, the clusterer and the regressor are parameters.
-/
namespace Verif.Nmf
open Verif.Py

variable {k d : Nat}

/-! ### dissimilarity -/

/-- `np.linalg.norm` of a row (`utils.py:110-111`). -/
noncomputable def norm (r : Fin d → ℝ) : ℝ := Real.sqrt (∑ j, r j ^ 2)

/-- `C = np.dot(H1, H2.T)` of the normalised bases (`utils.py:110-112`). -/
noncomputable def cosine (H1 H2 : Fin k → Fin d → ℝ) (a b : Fin k) : ℝ :=
  ∑ j, H1 a j / norm (H1 a) * (H2 b j / norm (H2 b))

open Classical in
/-- `dissimilarity` (`utils.py:93-114`).  A zero row is divided by its norm zero, which gives NaN in its
    row (or column) of `C`, in the maxima and in the result.  `k` is at least one in all calls. -/
noncomputable def dissimilarity (H1 H2 : Fin k → Fin d → ℝ) : Ext ℝ :=
  if (∃ a, norm (H1 a) = 0) ∨ ∃ b, norm (H2 b) = 0 then .nan
  else
    let C := cosine H1 H2
    .fin (1 - ((∑ b, ⨆ a, C a b) + (∑ a, ⨆ b, C a b)) / (2 * k))

/-! ### The choice of the rank -/

variable {K : Type} [Field K] [LinearOrder K]

/-- Sum of two floats. -/
def addE : Ext K → Ext K → Ext K
  | .fin x, .fin y => .fin (x + y)
  | .nan, _ | _, .nan => .nan
  | .pinf, .ninf | .ninf, .pinf => .nan
  | .pinf, _ | _, .pinf => .pinf
  | .ninf, _ | _, .ninf => .ninf

/-- `a < b` for floats. -/
def ltE : Ext K → Ext K → Bool
  | .fin x, .fin y => decide (x < y)
  | .ninf, .fin _ | .ninf, .pinf | .fin _, .pinf => true
  | _, _ => false

/-- Loop of `np.argmin`: position and value of the best entry so far, position of the head. -/
def argminFrom : Nat → Ext K → Nat → List (Ext K) → Nat
  | bi, _, _, [] => bi
  | bi, .nan, _, _ => bi
  | bi, b, i, x :: xs =>
    if x = .nan ∨ ltE x b then argminFrom i x (i + 1) xs else argminFrom bi b (i + 1) xs

/-- `np.argmin`: the first NaN if there is one, otherwise the first minimum; `ValueError` on an empty
    array (`NMF.py:204`). -/
def argmin : List (Ext K) → Except PyErr Nat
  | [] => .error .valueError
  | x :: xs => .ok (argminFrom 0 x 1 xs)

/-- `combinations(range(n), 2)` (`NMF.py:199`). -/
def pairs (n : Nat) : List (Nat × Nat) :=
  (List.range n).flatMap fun a => ((List.range n).filter fun b => a < b).map fun b => (a, b)

/-- `gamma[k_idx]` (`NMF.py:194-200`): the sum over the pairs of bootstraps. -/
def gamma (nBoots : Nat) (diss : Nat → Nat → Ext K) : Ext K :=
  (pairs nBoots).foldl (fun g p => addE g (diss p.1 p.2)) (.fin 0)

/-- `(gamma * 2) / (n_boots * (n_boots - 1))` (`NMF.py:201-203`).  With fewer than two bootstraps `gamma` is zero and
    so is the denominator: NaN. -/
def scaleGamma (nBoots : Nat) : Ext K → Ext K
  | .fin g => if nBoots < 2 then .nan else .fin (g * 2 / (nBoots * (nBoots - 1)))
  | x => x

/-- The rank chosen with `use_dissimilarity=True` and `dissimilarity_` (`NMF.py:191-204`); `diss i` is
    the table of dissimilarities for rank number `i`. -/
def chooseRank (nBoots : Nat) (ranks : List Nat) (diss : Nat → Nat → Nat → Ext K) :
    Except PyErr (Nat × List (Ext K)) :=
  let g := (List.range ranks.length).map fun i => gamma nBoots (diss i)
  match argmin g with
  | .error e => .error e
  | .ok i =>
    match ranks[i]? with
    | none => .error .indexError
    | some k => .ok (k, g.map (scaleGamma nBoots))

/-! ### Consensus bases -/

/-- `normalize(H, norm='l2', axis=1)` for one row: a zero row is left as it is (`NMF.py:220,239`). -/
noncomputable def normalizeRow (r : Fin d → ℝ) : Fin d → ℝ :=
  if norm r = 0 then r else fun j => r j / norm r

open Classical in
/-- `H_pre_cluster` after removing the rows that sum to zero and normalising (`NMF.py:218-220`). -/
noncomputable def preCluster (H : List (Fin d → ℝ)) : List (Fin d → ℝ) :=
  (H.filter fun r => decide (∑ j, r j ≠ 0)).map normalizeRow

/-- `np.mean(rows, axis=0)`. -/
noncomputable def meanRows (rows : List (Fin d → ℝ)) : Fin d → ℝ := fun j =>
  (rows.map fun r => r j).sum / rows.length

/-- `np.median(rows, axis=0)`. -/
noncomputable def medianRows (rows : List (Fin d → ℝ)) : Fin d → ℝ := fun j =>
  median 0 (rows.map fun r => r j)

/-- The rows of one cluster, `H_pre_cluster[labels == c]` (`NMF.py:235`). -/
def cluster {α : Type} (H : List α) (labels : List Int) (c : Int) : List α :=
  ((H.zip labels).filter fun hl => hl.2 = c).map Prod.fst

/-- `np.unique(labels[labels != -1])` (`NMF.py:227`). -/
def clusterIds (labels : List Int) : List Int :=
  ((labels.filter fun l => l ≠ -1).dedup).insertionSort (· ≤ ·)

/-- `H_cons[c, :] = row` for an array with `n` rows: negative indices count from the end, others must
    be in range (`NMF.py:234-236`). -/
def setRow {α : Type} (H : List α) (c : Int) (row : α) : Except PyErr (List α) :=
  if 0 ≤ c ∧ c < H.length then .ok (H.set c.toNat row)
  else if c < 0 ∧ -(H.length : Int) ≤ c then .ok (H.set (c + H.length).toNat row)
  else .error .indexError

/-- The loop over the clusters (`NMF.py:234-236`). -/
def consLoop {α : Type} (cons : Int → α) : List Int → List α → Except PyErr (List α)
  | [], H => .ok H
  | c :: cs, H =>
    match setRow H c (cons c) with
    | .error e => .error e
    | .ok H => consLoop cons cs H

/-- `components_` from the bases to be clustered (`NMF.py:218-241`).  `fitPredict` is the clusterer,
    `consMeth` the consensus method.  `normalize` raises a `ValueError` for an array without rows
    (scikit-learn's `check_array`), so there must be a nonzero basis and a cluster.  Labels of the
    wrong length are an `IndexError` at line 235.  Not modelled: data without columns. -/
noncomputable def consensus (fitPredict : List (Fin d → ℝ) → Except PyErr (List Int))
    (consMeth : List (Fin d → ℝ) → Fin d → ℝ) (bases : List (Fin d → ℝ)) :
    Except PyErr (List (Fin d → ℝ)) :=
  let H := preCluster bases
  if H.length = 0 then .error .valueError else
  match fitPredict H with
  | .error e => .error e
  | .ok labels =>
    if labels.length ≠ H.length then .error .indexError else
    let ids := clusterIds labels
    match consLoop (fun c => consMeth (cluster H labels c)) ids
        (List.replicate ids.length fun _ => 0) with
    | .error e => .error e
    | .ok H => if H.length = 0 then .error .valueError else .ok (H.map normalizeRow)

/-- The bases to be clustered (`NMF.py:191-216`); `H b k` are the components the solver found in
    bootstrap `b` for rank `k`.  Simplification: ranks are distinct (for a repeated rank only the
    last result is kept). -/
noncomputable def basesOf (nBoots : Nat) (ranks : List Nat) (useDiss : Bool)
    (H : Nat → (k : Nat) → Fin k → Fin d → ℝ) :
    Except PyErr (List (Fin d → ℝ)) :=
  let all := fun k => (List.range nBoots).flatMap fun b => List.ofFn (H b k)
  if useDiss then
    match chooseRank nBoots ranks fun i b b' =>
      dissimilarity (H b (ranks.getD i 0)) (H b' (ranks.getD i 0)) with
    | .error e => .error e
    | .ok (k, _) => .ok (all k)
  else .ok (ranks.flatMap all)

/-! ### The estimator object -/

/-- `ranks` argument (`NMF.py:97-105`): nothing, an integer, a sequence, or something else. -/
inductive RanksArg where
  | none
  | int (z : Int)
  | seq (l : List Nat)
  | other
  deriving DecidableEq, Repr

/-- `nmf` and `cluster` arguments (`NMF.py:108-122`). -/
inductive SolverArg where
  | none
  | inst
  | cls
  deriving DecidableEq, Repr

/-- `nnreg` argument (`NMF.py:125-133`). -/
inductive RegArg where
  | none
  | estimator
  | callable
  | other
  deriving DecidableEq, Repr

/-- `random_state` argument (`NMF.py:143-150`); `other` includes NumPy integers. -/
inductive SeedArg where
  | none
  | int
  | inst
  | other
  deriving DecidableEq, Repr

/-- Constructor arguments of `UoI_NMF_Base` that its code distinguishes (`NMF.py:59-62`). -/
structure InitArgs where
  nBoots : Nat := 10
  ranks : RanksArg := .none
  nmf : SolverArg := .none
  cluster : SolverArg := .none
  nnreg : RegArg := .none
  useDiss : Bool := true
  seed : SeedArg := .none
  deriving DecidableEq, Repr

/-- An estimator: the names of its attributes and the values used below.  `components` is
    `components_`: `None` until a fit. -/
structure Est (d : Nat) where
  attrs : List String
  nBoots : Nat
  ranks : Option (List Nat)
  useDiss : Bool
  components : Option (List (Fin d → ℝ))

/-- The two classes. -/
inductive Cls where
  | base
  | uoi
  deriving DecidableEq, Repr

/-- The parameter names in the signatures of `UoI_NMF_Base.__init__` (`NMF.py:59-62`) and
    `UoI_NMF.__init__` (`NMF.py:408-416`), which `get_params` reads as attributes. -/
def paramNames : Cls → List String
  | .base => ["n_boots", "ranks", "nmf", "cluster", "nnreg", "cons_meth", "use_dissimilarity",
      "random_state", "logger"]
  | .uoi => ["n_boots", "ranks", "nmf_init", "nmf_solver", "nmf_beta_loss", "nmf_tol",
      "nmf_max_iter", "db_eps", "db_min_samples", "db_metric", "db_metric_params", "db_algorithm",
      "db_leaf_size", "use_dissimilarity", "random_state", "logger", "nmf", "cluster", "nnreg",
      "cons_meth"]

/-- `ranks` as stored (`NMF.py:97-105`): `range(2, ranks + 1)` for an integer. -/
def ranksOf : RanksArg → Except PyErr (Option (List Nat))
  | .none => .ok .none
  | .int z => .ok (some ((List.range (z - 1).toNat).map (· + 2)))
  | .seq l => .ok (some l)
  | .other => .error .valueError

/-- `UoI_NMF_Base.__init__` with `__initialize` (`NMF.py:59-76`, `83-159`). -/
def init (d : Nat) (a : InitArgs) : Except PyErr (Est d) :=
  match ranksOf a.ranks with
  | .error e => .error e
  | .ok r =>
    if a.nmf = .cls then .error .valueError
    else if a.cluster = .cls then .error .valueError
    else if a.nnreg = .other then .error .valueError
    else if a.seed = .other then .error .attributeError
    else if a.nBoots = 1 ∧ a.useDiss then .error .valueError
    else .ok
      { attrs := ["n_boots", "components_"] ++ (if r.isSome then ["ranks"] else []) ++
          ["nmf", "cluster", "nnreg", "cons_meth", "_rand", "bases_samples_",
            "bases_samples_labels_", "bootstraps_", "comm", "_logger", "use_dissimilarity"]
        nBoots := a.nBoots, ranks := r, useDiss := a.useDiss, components := none }

/-- `BaseEstimator.get_params` (scikit-learn 0.24 or newer, `requirements.txt`): `AttributeError` for
    a parameter that is not an attribute. -/
def getParams {d : Nat} (cls : Cls) (s : Est d) : Except PyErr (List String) :=
  if ∀ n ∈ paramNames cls, n ∈ s.attrs then .ok (paramNames cls) else .error .attributeError

/-- `set_params` (`NMF.py:78-81`): both the inherited `set_params` (unless called without arguments)
    and the second line call `get_params` first.  What happens after that is not modelled: it is not
    reached (C60). -/
def setParams {d : Nat} (cls : Cls) (s : Est d) (_kwargs : List String)
    (rest : Est d → Except PyErr (Est d)) : Except PyErr (Est d) :=
  match getParams cls s with
  | .error e => .error e
  | .ok _ => rest s

/-- The external parts of `fit`. -/
structure Solvers (d : Nat) where
  nmf : List (Fin d → ℝ) → Nat → Nat → Except PyErr ((k : Nat) → Fin k → Fin d → ℝ)
  fitPredict : List (Fin d → ℝ) → Except PyErr (List Int)
  consMeth : List (Fin d → ℝ) → Fin d → ℝ

/-- Components of all bootstraps: the solver is run for every bootstrap (`NMF.py:182-189`).
    Simplification: one call per bootstrap returns the components for all ranks. -/
def allBases {d : Nat} (e : Solvers d) (X : List (Fin d → ℝ)) (nBoots : Nat) :
    Except PyErr (List ((k : Nat) → Fin k → Fin d → ℝ)) :=
  mapE (fun b => e.nmf X nBoots b) (List.range nBoots)

open Classical in
/-- `fit` (`NMF.py:161-245`): the new value of `components_`. -/
noncomputable def fit {d : Nat} (e : Solvers d) (s : Est d) (X : List (Fin d → ℝ)) :
    Except PyErr (Est d) :=
  if ¬ ∀ r ∈ X, ∀ j, 0 ≤ r j then .error .valueError
  else
    match s.ranks with
    | none => .error .attributeError
    | some ranks =>
      match allBases e X s.nBoots with
      | .error err => .error err
      | .ok Hs =>
        match basesOf s.nBoots ranks s.useDiss fun b => Hs.getD b fun _ _ _ => 0 with
        | .error err => .error err
        | .ok bases =>
          match consensus e.fitPredict e.consMeth bases with
          | .error err => .error err
          | .ok comp => .ok { s with
              attrs := s.attrs ++ ["n_components", "dissimilarity_", "reconstruction_err_"]
              components := some comp }

/-- The estimators a program can get: constructed, and changed by `fit` and `set_params`
    (`NMF.py:59-81`, `161-245`).  `transform` changes only `reconstruction_err_`. -/
inductive Reachable (d : Nat) : Est d → Prop where
  | init {a : InitArgs} {s : Est d} : init d a = .ok s → Reachable d s
  | fit {s s' : Est d} {e : Solvers d} {X : List (Fin d → ℝ)} :
      Reachable d s → fit e s X = .ok s' → Reachable d s'
  | setParams {s s' : Est d} {cls : Cls} {kw : List String} {rest : Est d → Except PyErr (Est d)} :
      Reachable d s → setParams cls s kw rest = .ok s' → Reachable d s'

/-! ### transform -/

/-- The dtypes that matter for `W = np.zeros(..., dtype=X.dtype)` (`NMF.py:273`). -/
inductive DT where
  | int
  | float
  deriving DecidableEq, Repr

/-- Conversion of a float on assignment into an array: integers are truncated towards zero. -/
noncomputable def store : DT → ℝ → ℝ
  | .float, x => x
  | .int, x => if 0 ≤ x then (⌊x⌋ : ℝ) else (⌈x⌉ : ℝ)

/-- `transform` (`NMF.py:247-283`) of a matrix with `m` columns.  `check_is_fitted` only looks whether
    the attribute `components_` exists, which the constructor has set to `None`; then
    `None.shape` is an `AttributeError`.  Simplification: the regressor returns one weight per
    component. -/
noncomputable def transform {d m : Nat} (nnreg : List (Fin d → ℝ) → (Fin m → ℝ) → List ℝ) (s : Est d)
    (dt : DT) (X : List (Fin m → ℝ)) : Except PyErr (List (List ℝ)) :=
  if "components_" ∉ s.attrs then .error .notFitted
  else
    match s.components with
    | none => .error .attributeError
    | some H =>
      if m ≠ d then .error .valueError
      else .ok (X.map fun x => (nnreg H x).map (store dt))

/-- `inverse_transform` (`NMF.py:307-328`) of weights with `q` columns. -/
noncomputable def inverseTransform {d q : Nat} (s : Est d) (W : List (Fin q → ℝ)) :
    Except PyErr (List (Fin d → ℝ)) :=
  if "components_" ∉ s.attrs then .error .notFitted
  else
    match s.components with
    | none => .error .attributeError
    | some H =>
      if q ≠ H.length then .error .valueError
      else .ok (W.map fun w j => ∑ c : Fin q, w c * (H.getD c.val fun _ => 0) j)

/-! ### UoI_NMF -/

/-- The keyword arguments of scikit-learn's `NMF` that the code passes (`NMF.py:113-114`, `418-422`). -/
structure SkNmf where
  init : String
  solver : String
  betaLoss : String
  tol : ℚ
  maxIter : Nat
  deriving DecidableEq

/-- The keyword arguments of `DBSCAN` (`NMF.py:122`, `427-431`). -/
structure Dbscan where
  eps : ℚ
  minSamples : Nat
  metric : String
  metricParams : Option String
  algorithm : String
  leafSize : Nat
  deriving DecidableEq

/-- What the code builds itself: scikit-learn's `NMF` and `DBSCAN` objects, `scipy.optimize.nnls` and
    `np.mean`. -/
structure Parts.World (N C R M : Type) where
  nmf : SkNmf → N
  dbscan : Dbscan → C
  nnls : R
  mean : M

/-- The solver, clusterer, regressor and consensus method of an estimator. -/
structure Parts (N C R M : Type) where
  nmf : N
  cluster : C
  nnreg : R
  consMeth : M

/-- The arguments that replace them (`NMF.py:60-61`); accepted values only, see `init`. -/
structure PartArgs (N C R M : Type) where
  nmf : Option N := none
  cluster : Option C := none
  nnreg : Option R := none
  consMeth : Option M := none

/-- `UoI_NMF_Base.__initialize` (`NMF.py:107-140`): the parts the estimator ends up with.  Arguments
    that are not passed to scikit-learn have its defaults. -/
def baseParts {N C R M : Type} (w : Parts.World N C R M) (nBoots : Nat) (a : PartArgs N C R M) :
    Parts N C R M where
  nmf := a.nmf.getD (w.nmf ⟨"random", "mu", "kullback-leibler", 1 / 10000, 400⟩)
  cluster := a.cluster.getD (w.dbscan ⟨1 / 2, max (nBoots / 2) 1, "euclidean", none, "auto", 30⟩)
  nnreg := a.nnreg.getD w.nnls
  consMeth := a.consMeth.getD w.mean

/-- Arguments of `UoI_NMF` (`NMF.py:408-416`). -/
structure UoiNmfArgs (N C R M : Type) extends PartArgs N C R M where
  nBoots : Nat
  nmfInit : String := "random"
  nmfSolver : String := "mu"
  nmfBetaLoss : String := "kullback-leibler"
  nmfTol : ℚ := 1 / 10000
  nmfMaxIter : Nat := 400
  dbEps : ℚ := 1 / 2
  dbMinSamples : Option Nat := none
  dbMetric : String := "euclidean"
  dbMetricParams : Option String := none
  dbAlgorithm : String := "auto"
  dbLeafSize : Nat := 30

/-- `UoI_NMF.__init__` (`NMF.py:417-441`): the arguments `nmf`, `cluster`, `nnreg` and `cons_meth` are
    overwritten, and `db_leaf_size` is not passed on. -/
def uoiNmfParts {N C R M : Type} (w : Parts.World N C R M) (a : UoiNmfArgs N C R M) : Parts N C R M :=
  let nmf := w.nmf ⟨a.nmfInit, a.nmfSolver, a.nmfBetaLoss, a.nmfTol, a.nmfMaxIter⟩
  let minSamples := a.dbMinSamples.getD (max (a.nBoots / 2) 1)
  let dbscan := w.dbscan ⟨a.dbEps, minSamples, a.dbMetric, a.dbMetricParams, a.dbAlgorithm, 30⟩
  baseParts w a.nBoots { nmf := some nmf, cluster := some dbscan, nnreg := none, consMeth := some w.mean }

end Verif.Nmf
