import Verif.Model.MpiUtils
import Verif.Model.Intersection
import Verif.Py.ArraySplit
import Verif.Py.Reduce
/-!
Model of `AbstractUoILinearModel.fit` (`/repo/src/pyuoi/linear_model/base.py:179-445`) after
`_pre_fit` and the constant-response check, as the program run by process `rank` of `size`; the
serial fit is `size = 1`.  What is not pyuoi's own code (drawing splits, solvers, scoring) is a
parameter.
-/
namespace Verif.Fit
open Verif.Py Verif.MpiUtils Verif.Intersection

/-- A train/test split of the row indices (return value of `train_test_split`, `base.py:251`). -/
structure Split where
  train : List Nat
  test : List Nat
  deriving DecidableEq, Repr

/-- One entry `self.supports_[support_idx]` (`base.py:367`): a mask when `supports_` is 2-d, a single
    boolean when `supports_` has been squeezed to 1-d. -/
inductive Support where
  | scalar (b : Bool)
  | mask (m : List Bool)
  deriving DecidableEq, Repr

/-- Everything `fit` takes from outside: sizes, the regularization grid, the thresholds, the draws,
    the solvers and the scoring.  `K` scalars, `G` random-generator states, `S` selection-solver
    states, `M` fitted estimation models, `RP` regularization parameters. -/
structure Env (K G S M RP : Type) where
  /-- `self.n_boots_sel`, `self.n_boots_est` (`base.py:93-94`). -/
  nBootsSel : Nat
  nBootsEst : Nat
  /-- `X.shape[1]` (`base.py:210`) and `self.output_dim`. -/
  nFeat : Nat
  outDim : Nat
  /-- `self.shared_support` (`base.py:99`). -/
  shared : Bool
  /-- Whether the class uses the multi-class `intersect` of `base.py:724-735` rather than the plain
      one of `base.py:577-579`. -/
  glm : Bool
  /-- `self.selection_thresholds_` (`base.py:117`). -/
  thresholds : List Int
  /-- `self.reg_params_` (`base.py:224`). -/
  regParams : List RP
  /-- `train_test_split(np.arange(n), test_size=1-frac, stratify, random_state)`
      (`base.py:251-254,342-345`); the flag says whether it is an estimation bootstrap. -/
  draw : Bool → G → Except PyErr (Split × G)
  /-- `_selection_lm.set_params(**rp); _selection_lm.fit(X[rows], y[rows])` (`base.py:474-476`). -/
  fitSel : S → RP → List Nat → Except PyErr S
  /-- `_selection_lm.coef_.ravel()` (`base.py:478`). -/
  selCoef : S → List K
  /-- `coef_ *= 0.; intercept_ *= 0.` where present (`base.py:281-284`). -/
  reset : S → S
  /-- Fitting the estimation model on the rows, restricted to the support (`base.py:377,381`). -/
  fitEst : List Bool → List Nat → Except PyErr M
  /-- `_estimation_lm.coef_.ravel()` (`base.py:379,382`). -/
  estCoef : M → List K
  /-- `_score_predictions(...)` for a fitted candidate (`base.py:384-389`). -/
  score : M → List Bool → Split → Except PyErr K
  /-- `_fit_intercept_no_features(y_rep)` (`base.py:391`). -/
  fitEmpty : List Nat → Except PyErr M
  /-- `_score_predictions(...)` of the intercept-only candidate (`base.py:396-401`). -/
  scoreEmpty : M → Split → Except PyErr K
  /-- `_fit_intercept(X, y)` for given `coef_`; returns `intercept_` (`base.py:423,441`). -/
  fitIntercept : NDArr K → Except PyErr (NDArr K)
  /-- `_post_fit(X, y)` on `(coef_, intercept_)` (`base.py:443`). -/
  post : NDArr K → NDArr K → Except PyErr (NDArr K × NDArr K)
  /-- The value NumPy returns for the median of nothing. -/
  nan : K

/-- The fitted attributes set by `fit`. -/
structure FitState (K : Type) where
  supports : BArr
  estimates : NDArr K
  scores : NDArr K
  rpMax : List Nat
  coef : NDArr K
  intercept : NDArr K
  deriving DecidableEq

variable {K G S M RP : Type}

/-- `get_n_coef` (`base.py:483-488`). -/
def Env.nCoef (env : Env K G S M RP) : Nat := env.nFeat * env.outDim

/-- `n_reg_params_` (`base.py:225`). -/
def Env.nReg (env : Env K G S M RP) : Nat := env.regParams.length

/-- Assigning a vector to a row of length `n`: equal length, or a single value that is broadcast,
    otherwise `ValueError` (`base.py:382,478`). -/
def assignRow (n : Nat) (xs : List K) : Except PyErr (List K) :=
  if xs.length = n then .ok xs
  else match xs with
    | [x] => .ok (List.replicate n x)
    | _ => .error .valueError

/-- `row[mask] = vals` on a zero row, values already as many as there are `True`s. -/
def fillMask [Zero K] : List Bool → List K → List K
  | [], _ => []
  | true :: m, v :: vs => v :: fillMask m vs
  | true :: m, [] => 0 :: fillMask m []
  | false :: m, vs => 0 :: fillMask m vs

/-- `estimates[ii, np.tile(support, output_dim)] = coef` on a zero row of length `n`
    (`base.py:378-379`): `IndexError` if the mask has the wrong length, `ValueError` if the number
    of values does not match (a single value is broadcast). -/
def assignMasked [Zero K] (n : Nat) (mask : List Bool) (vals : List K) : Except PyErr (List K) :=
  if mask.length ≠ n then .error .indexError
  else if vals.length = mask.count true then .ok (fillMask mask vals)
  else match vals with
    | [x] => .ok (fillMask mask (List.replicate (mask.count true) x))
    | _ => .error .valueError

/-- `uoi_selection_sweep` (`base.py:447-481`): fit for each parameter in turn, keep the
    coefficients, carry the solver state along. -/
def sweep (env : Env K G S M RP) : S → List RP → List Nat → Except PyErr (List (List K) × S)
  | s, [], _ => .ok ([], s)
  | s, rp :: rps, train =>
    match env.fitSel s rp train with
    | .error e => .error e
    | .ok s' =>
      match assignRow env.nCoef (env.selCoef s') with
      | .error e => .error e
      | .ok row =>
        match sweep env s' rps train with
        | .error e => .error e
        | .ok (rows, s'') => .ok (row :: rows, s'')

/-- Whether tasks are (bootstrap, parameter) pairs rather than whole bootstraps (`base.py:235`). -/
def Env.fine (env : Env K G S M RP) (size : Nat) : Bool := decide (size > env.nBootsSel)

/-- The selection tasks of all processes together (`base.py:236,243`). -/
def Env.selTasks (env : Env K G S M RP) (size : Nat) : List Nat :=
  List.range (if env.fine size then env.nBootsSel * env.nReg else env.nBootsSel)

/-- `boot_idx` of a selection task (`base.py:272,276`). -/
def Env.selBoot (env : Env K G S M RP) (size t : Nat) : Nat :=
  if env.fine size then t / env.nReg else t

/-- `my_reg_params` of a selection task (`base.py:274,277`); `reg_idx` out of range would be an
    `IndexError`. -/
def Env.selRegs (env : Env K G S M RP) (size t : Nat) : Except PyErr (List RP) :=
  if env.fine size then
    match env.regParams[t % env.nReg]? with
    | some rp => .ok [rp]
    | none => .error .indexError
  else .ok env.regParams

/-- `selection_coefs[ii] = np.squeeze(sweep)` (`base.py:300`): the squeezed `(n_params, n_coef)`
    array is broadcast into a row of shape `(n_coef,)` (fine tasks) or `(n_reg_params, n_coef)`.
    With a single coefficient and several parameters the source has shape `(n_params,)`, which
    does not broadcast to `(n_params, 1)`. -/
def assignSel (env : Env K G S M RP) (size : Nat) (rows : List (List K)) :
    Except PyErr (List K) :=
  if env.fine size = false ∧ env.nCoef = 1 ∧ env.nReg ≠ 1 then .error .valueError
  else .ok rows.flatten

/-- `my_boots[boot_idx]` (`base.py:287,369`): `KeyError` for a bootstrap that is not among this
    process's keys. -/
def lookup (keys : List Nat) (boots : List Split) (b : Nat) : Except PyErr Split :=
  if b ∈ keys then
    match boots[b]? with
    | some sp => .ok sp
    | none => .error .keyError
  else .error .keyError

/-- The selection loop of one process (`base.py:268-301`). `cur` is `curr_boot_idx`. -/
def selLoop (env : Env K G S M RP) (size : Nat) (keys : List Nat) (boots : List Split) :
    List Nat → Option Nat → S → Except PyErr (List (List K))
  | [], _, _ => .ok []
  | t :: ts, cur, s =>
    let b := env.selBoot size t
    match env.selRegs size t with
    | .error e => .error e
    | .ok regs =>
      let s := if cur ≠ some b then env.reset s else s
      match lookup keys boots b with
      | .error e => .error e
      | .ok sp =>
        match sweep env s regs sp.train with
        | .error e => .error e
        | .ok (rows, s') =>
          match assignSel env size rows with
          | .error e => .error e
          | .ok row =>
            match selLoop env size keys boots ts (some b) s' with
            | .error e => .error e
            | .ok rest => .ok (row :: rest)

/-- The array `selection_coefs` of a process (`base.py:238,245`). -/
def selArr (env : Env K G S M RP) (size : Nat) (rows : List (List K)) : NDArr K :=
  ⟨if env.fine size then [rows.length, env.nCoef] else [rows.length, env.nReg, env.nCoef], .f64,
    rows.flatten.map .f⟩

/-- Reading a float out of an array. -/
def Env.toF (env : Env K G S M RP) : Scalar K → K
  | .f x => x
  | _ => env.nan

/-- `selection_coefs` seen as `(bootstraps, parameters, coefficients)`; on rank 0 of the fine path
    after `reshape(n_boots_sel, n_reg_params_, n_coef)` (`base.py:308-312`), which fails if the
    sizes do not match.  Otherwise the array must be 3-d (`coefs.shape[2]`,
    `linear_model/utils.py:124`). -/
def toArr3 (env : Env K G S M RP) (resh : Bool) (a : NDArr K) : Except PyErr (Arr3 K) :=
  let get := fun b l j =>
    env.toF (a.data.getD ((b * env.nReg + l) * env.nCoef + j) .undef)
  if resh then
    if a.data.length = env.nBootsSel * env.nReg * env.nCoef then
      .ok ⟨env.nBootsSel, env.nReg, env.nCoef, get⟩
    else .error .valueError
  else
    match a.shape with
    | [n0, n1, n2] => .ok ⟨n0, n1, n2, get⟩
    | _ => .error .indexError

/-- `self.intersect(selection_coefs, self.selection_thresholds_)` (`base.py:313-315,321`). -/
def Env.intersect [Zero K] [DecidableEq K] (env : Env K G S M RP) (A : Arr3 K) :
    Except PyErr BArr :=
  if env.glm then glmIntersect A (some env.thresholds) env.outDim env.shared
  else intersection A (some env.thresholds)

/-- `supports.astype(int)` as an array (`base.py:315`). -/
def encodeB : BArr → NDArr K
  | .d0 b => ⟨[], .int, [.i (if b then 1 else 0)]⟩
  | .d1 xs => ⟨[xs.length], .int, xs.map fun b => .i (if b then 1 else 0)⟩
  | .d2 rows => ⟨[rows.length, (rows.headD []).length], .int,
      rows.flatten.map fun b => .i (if b then 1 else 0)⟩

/-- `bool(x)` of an array element. -/
def truthy : Scalar K → Bool
  | .i z => decide (z ≠ 0)
  | _ => true

/-- `supports.astype(bool)` (`base.py:319`). -/
def decodeB (a : NDArr K) : Except PyErr BArr :=
  match a.shape with
  | [_] => .ok (.d1 (a.data.map truthy))
  | [r, c] => .ok (.d2 ((List.range r).map fun i => ((a.data.drop (i * c)).take c).map truthy))
  | _ => .error .indexError

/-- `self.supports_.shape[0]` (`base.py:324`). -/
def shape0 : BArr → Except PyErr Nat
  | .d0 _ => .error .indexError
  | .d1 xs => .ok xs.length
  | .d2 rows => .ok rows.length

/-- `self.supports_[i]` (`base.py:367`). -/
def supportAt : BArr → Nat → Except PyErr Support
  | .d0 _, _ => .error .indexError
  | .d1 xs, i => match xs[i]? with
    | some b => .ok (.scalar b)
    | none => .error .indexError
  | .d2 rows, i => match rows[i]? with
    | some m => .ok (.mask m)
    | none => .error .indexError

/-- One estimation task (`base.py:364-401`): the row of `estimates` and the score.  A scalar `True`
    support indexes `X_rep[:, True]`, a 3-d array, which the solver rejects with `ValueError`. -/
def estTask [Zero K] (env : Env K G S M RP) (supports : BArr) (nSup : Nat) (keys : List Nat)
    (boots : List Split) (t : Nat) : Except PyErr (List K × K) := do
  let support ← supportAt supports (t % nSup)
  let sp ← lookup keys boots (t / nSup)
  let empty : Except PyErr (List K × K) := do
    let m ← env.fitEmpty sp.train
    let sc ← env.scoreEmpty m sp
    return (List.replicate env.nCoef 0, sc)
  match support with
  | .scalar true => .error .valueError
  | .scalar false => empty
  | .mask mask =>
    if mask.any id then do
      let m ← env.fitEst mask sp.train
      let row ← (if env.shared then
          assignMasked env.nCoef (List.replicate env.outDim mask).flatten (env.estCoef m)
        else assignRow env.nCoef (env.estCoef m))
      let sc ← env.score m mask sp
      return (row, sc)
    else empty

/-- The arrays `estimates` and `scores` of a process (`base.py:336,360`). -/
def estArr (env : Env K G S M RP) (res : List (List K × K)) : NDArr K :=
  ⟨[res.length, env.nCoef], .f64, (res.map Prod.fst).flatten.map .f⟩

/-- See `estArr`. -/
def scoreArr (res : List (List K × K)) : NDArr K := ⟨[res.length], .f64, res.map fun r => .f r.2⟩

/-- `a.reshape(shape)` (`base.py:412-415,431-433`): `ValueError` if the sizes differ. -/
def reshape (a : NDArr K) (shape : List Nat) : Except PyErr (NDArr K) :=
  if a.data.length = shapeSize shape then .ok { a with shape := shape } else .error .valueError

/-- What rank 0 (or the serial fit) computes from the gathered estimates and scores
    (`base.py:411-423,431-441`): reshaped arrays, chosen supports, coefficients, intercept. -/
def reduce [LinearOrder K] [Field K] (env : Env K G S M RP) (nSup : Nat)
    (estimates scores : NDArr K) :
    Except PyErr (NDArr K × NDArr K × List Nat × NDArr K × NDArr K) := do
  let estimates ← reshape estimates [env.nBootsEst, nSup, env.nCoef]
  let scores ← reshape scores [env.nBootsEst, nSup]
  if nSup = 0 then .error .valueError
  else do
    let rpMax ← mapE (fun b =>
      argmax ((List.range nSup).map fun i => env.toF (scores.data.getD (b * nSup + i) .undef)))
      (List.range env.nBootsEst)
    let coef := (List.range env.nCoef).map fun j =>
      median env.nan ((List.range env.nBootsEst).map fun b =>
        env.toF (estimates.data.getD ((b * nSup + rpMax.getD b 0) * env.nCoef + j) .undef))
    let coef : NDArr K := ⟨[env.outDim, env.nFeat], .f64, coef.map .f⟩
    let intercept ← env.fitIntercept coef
    return (estimates, scores, rpMax, coef, intercept)

/-- The train/test splits of one phase (`base.py:248-266,339-357`): drawn on rank 0 and broadcast
    (two arrays), or drawn locally in the serial fit. Returns the splits and the generator. -/
def drawBoots (env : Env K G S M RP) (size rank : Nat) (est : Bool) :
    Nat → G → Prog K (List Split × G)
  | 0, g => .ret ([], g)
  | k + 1, g => do
    let p ← (if size > 1 then do
        let own ← (if rank = 0 then do
            let q ← Prog.lift (env.draw est g)
            Prog.ret (some q)
          else Prog.ret none)
        let train ← bcastFromRoot rank 0 (own.elim .none fun q => .arr (NDArr.ofNats q.1.train))
        let test ← bcastFromRoot rank 0 (own.elim .none fun q => .arr (NDArr.ofNats q.1.test))
        Prog.ret (Split.mk train.toNats test.toNats, own.elim g Prod.snd)
      else Prog.lift (env.draw est g))
    let q ← drawBoots env size rank est k p.2
    Prog.ret (p.1 :: q.1, q.2)

/-- `comm.bcast(self.rp_max_idx_, root=0)` (`base.py:429`) as a list. -/
def asNats : Obj K → Except PyErr (List Nat)
  | .nats l => .ok l
  | _ => .error .typeError

/-- The selection module (`base.py:234-324`): from the splits to the candidate supports. -/
def selection [Zero K] [DecidableEq K] (env : Env K G S M RP) (size rank : Nat)
    (boots : List Split) (s : S) : Prog K BArr := do
  let tasks := splitPart (env.selTasks size) size rank
  let keys := if size > 1 then tasks.map (env.selBoot size) else List.range env.nBootsSel
  let rows ← Prog.lift (selLoop env size keys boots tasks none s)
  if size > 1 then do
    let r ← gathervRows rank 0 (.arr (selArr env size rows))
    let sup ← (if rank = 0 then
        match r with
        | some a => Prog.lift (do
            let A ← toArr3 env (env.fine size) a
            let B ← env.intersect A
            return Obj.arr (encodeB B))
        | none => Prog.fail .attributeError
      else Prog.ret .none)
    let a ← bcastFromRoot rank 0 sup
    Prog.lift (decodeB a)
  else Prog.lift (do
    let A ← toArr3 env false (selArr env size rows)
    env.intersect A)

/-- The estimation module (`base.py:331-443`). -/
def estimation [LinearOrder K] [Field K] (env : Env K G S M RP) (size rank : Nat)
    (supports : BArr) (nSup : Nat) (boots : List Split) : Prog K (FitState K) := do
  let tasks := splitPart (List.range (env.nBootsEst * nSup)) size rank
  let keys := if size > 1 then tasks.map (· / nSup) else List.range env.nBootsEst
  let res ← Prog.lift (mapE (estTask env supports nSup keys boots) tasks)
  if size > 1 then do
    let e ← gathervRows rank 0 (.arr (estArr env res))
    let c ← gathervRows rank 0 (.arr (scoreArr res))
    let own ← (if rank = 0 then
        match e, c with
        | some e, some c => Prog.lift (do
            let q ← reduce env nSup e c
            return some q)
        | _, _ => Prog.fail .attributeError
      else Prog.ret none)
    let estimates ← bcastFromRoot rank 0 (own.elim .none fun q => .arr q.1)
    let scores ← bcastFromRoot rank 0 (own.elim .none fun q => .arr q.2.1)
    let coef ← bcastFromRoot rank 0 (own.elim .none fun q => .arr q.2.2.2.1)
    let intercept ← bcastFromRoot rank 0 (own.elim .none fun q => .arr q.2.2.2.2)
    let o ← Prog.call (.bcast 0 (own.elim .none fun q => .nats q.2.2.1))
    let rpMax ← Prog.lift (asNats o)
    let ci ← Prog.lift (env.post coef intercept)
    Prog.ret ⟨supports, estimates, scores, rpMax, ci.1, ci.2⟩
  else do
    let q ← Prog.lift (reduce env nSup (estArr env res) (scoreArr res))
    let ci ← Prog.lift (env.post q.2.2.2.1 q.2.2.2.2)
    Prog.ret ⟨supports, q.1, q.2.1, q.2.2.1, ci.1, ci.2⟩

/-- `fit` from `base.py:220` on, on process `rank` of `size`, with random generator `g` and
    selection solver state `s`. -/
def fit [LinearOrder K] [Field K] (env : Env K G S M RP) (size rank : Nat) (g : G) (s : S) :
    Prog K (FitState K) := do
  let p ← drawBoots env size rank false env.nBootsSel g
  let supports ← selection env size rank p.1 s
  let nSup ← Prog.lift (shape0 supports)
  let q ← drawBoots env size rank true env.nBootsEst p.2
  estimation env size rank supports nSup q.1

end Verif.Fit
