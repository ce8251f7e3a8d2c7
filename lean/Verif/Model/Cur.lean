import Mathlib.Data.List.Sort
import Mathlib.Algebra.BigOperators.Fin
import Verif.Model.Thresholds
import Verif.Py.Reduce
import Verif.Py.Ext
import Mathlib.Algebra.BigOperators.Group.Finset.Basic
/-!
Model of `/repo/src/pyuoi/decomposition/CUR.py` (`UoI_CUR`, `CUR`) and of `column_select` and
`stability_selection_to_threshold` in `/repo/src/pyuoi/decomposition/utils.py`.

Matrices are lists of rows or functions of the indices; floats are elements of an ordered field.
-/
namespace Verif.Cur
open Verif.Py

variable {K : Type} [Field K] [LinearOrder K]

/-! ### column_select -/

/-- `pi = np.sum(V**2, axis=1) / k` for the first `k` columns of `V` (`utils.py:31-34`; the columns
    are cut off at `CUR.py:126` and `307`). -/
def leverage {d : Nat} (V : Fin d → Nat → K) (k : Nat) (i : Fin d) : K :=
  (∑ l ∈ Finset.range k, V i l ^ 2) / k

/-- Product of two floats. -/
def mulE : Ext K → Ext K → Ext K
  | .fin x, .fin y => .fin (x * y)
  | .nan, _ | _, .nan => .nan
  | .pinf, .pinf | .ninf, .ninf => .pinf
  | .pinf, .ninf | .ninf, .pinf => .ninf
  | .pinf, .fin y | .fin y, .pinf => if y = 0 then .nan else if 0 < y then .pinf else .ninf
  | .ninf, .fin y | .fin y, .ninf => if y = 0 then .nan else if 0 < y then .ninf else .pinf

/-- Python's `min(1, x)`: the second argument only if it is less than one, so `min(1, nan)` is one
    (`utils.py:40`). -/
def minOne : Ext K → Ext K
  | .fin x => if x < 1 then .fin x else .fin 1
  | .ninf => .ninf
  | _ => .fin 1

/-- `p > rng.rand()` (`utils.py:42`). -/
def gtDraw : Ext K → K → Bool
  | .fin p, u => decide (u < p)
  | .pinf, _ => true
  | _, _ => false

/-- The loop over the columns and `np.argwhere(column_flags).ravel()` (`utils.py:36-44`).  `u i` is
    the draw made for column `i`: one per column, in order. -/
def flagged {d : Nat} (V : Fin d → Nat → K) (k : Nat) (c : Ext K) (u : Nat → K) : List Nat :=
  ((List.finRange d).filter fun i => gtDraw (minOne (mulE c (.fin (leverage V k i)))) (u i)).map
    Fin.val

/-- Entry `i` of the leverage scores. -/
def leverageAt {d : Nat} (V : Fin d → Nat → K) (k i : Nat) : K :=
  if h : i < d then leverage V k ⟨i, h⟩ else 0

/-- Sources of randomness named by a `random_state` argument (`sklearn.utils.check_random_state`):
    nothing, an integer, or a generator object. -/
inductive RandomState where
  | none
  | int (s : Int)
  | inst
  deriving DecidableEq, Repr

/-- `column_select` (`utils.py:4-50`).  The generator is `RandomState(seed=None)`, so the draws `u`
    come from the entropy of the system; `random_state` is not used.  `argsort` is `np.argsort`, which
    does not promise an order for equal keys. -/
def columnSelect (argsort : List K → List Nat) {d : Nat} (V : Fin d → Nat → K) (k : Nat) (c : Ext K)
    (leverageSort : Bool) (_randomState : RandomState) (u : Nat → K) : List Nat :=
  let idx := flagged V k c u
  if leverageSort then (argsort (idx.map (leverageAt V k))).map fun j => idx.getD j 0 else idx

/-! ### stability_selection_to_threshold -/

/-- `stability_selection_to_threshold` (`utils.py:53-90`): a single integer or float.  Arguments
    that are neither an int nor a float are rejected.  `int(nan)` raises `ValueError`, `int(inf)`
    `OverflowError`. -/
def threshold (S : Thresholds.FloatSem) (ss : Thresholds.Arg) (nBoots : Nat) : Except PyErr Nat :=
  let check (z : Int) : Except PyErr Nat :=
    if z ≤ nBoots ∧ 1 ≤ z then .ok z.toNat else .error .valueError
  match ss with
  | .float f =>
    match Thresholds.mulN S f nBoots with
    | .fin q => check (Thresholds.trunc q)
    | .nan => .error .valueError
    | _ => .error .overflowError
  | .int z => check z
  | _ => .error .valueError

/-! ### check_ks_and_cs -/

/-- Contents of a NumPy array as far as `check_ks_and_cs` looks at them: integers, floats, booleans,
    or something without an order relation to numbers (strings). -/
inductive Arr (K : Type) where
  | ints (l : List Int)
  | floats (l : List (Ext K))
  | bools (l : List Bool)
  | strs (n : Nat)

/-- The argument `ks` (`CUR.py:161-168`).  `arr` is an ndarray with its shape; `list` what
    `np.array` makes of a (flat) list: an empty list becomes an empty float array. -/
inductive KsArg (K : Type) where
  | none
  | int (z : Int)
  | bool (b : Bool)
  | list (a : Arr K)
  | arr (shape : List Nat) (a : Arr K)
  | other

/-- The argument `cs` (`CUR.py:181-189`). -/
inductive CsArg (K : Type) where
  | none
  | int (z : Int)
  | bool (b : Bool)
  | float (x : Ext K)
  | list (a : Arr K)
  | arr (shape : List Nat) (a : Arr K)
  | other

/-- `x > 0`. -/
def posE : Ext K → Bool
  | .fin x => decide (0 < x)
  | .pinf => true
  | _ => false

/-- The first half of `check_ks_and_cs` (`CUR.py:160-178`): the ranks and the shape of their array.
    Comparing an array of strings with a number is a `TypeError`. -/
def checkKs (maxK : Int) (ks : KsArg K) : Except PyErr (List Nat × List Int) :=
  let check (shape : List Nat) (a : Arr K) : Except PyErr (List Nat × List Int) :=
    match a with
    | .ints l =>
      if ¬ (∀ k ∈ l, k ≤ maxK) ∨ ¬ (∀ k ∈ l, 0 < k) then .error .valueError else .ok (shape, l)
    | .strs _ => .error .typeError
    | _ => .error .valueError
  match ks with
  | .none => let l := (List.range maxK.toNat).map fun i : Nat => (1 : Int) + i; check [l.length] (.ints l)
  | .int z => check [1] (.ints [z])
  | .bool b => check [1] (.bools [b])
  | .list (.ints l) => if l = [] then check [0] (.floats []) else check [l.length] (.ints l)
  | .list a => check [0] a
  | .arr shape a => check shape a
  | .other => .error .valueError

/-- The second half (`CUR.py:181-201`): the numbers of columns, given the ranks. -/
def checkCs (ks : List Int) (cs : CsArg K) : Except PyErr (List (Ext K)) :=
  let check (a : Arr K) : Except PyErr (List (Ext K)) :=
    match a with
    | .ints l =>
      if ¬ (∀ c ∈ l, 0 < c) ∨ ¬ l.length = ks.length then .error .valueError
      else .ok (l.map fun c : Int => .fin (c : K))
    | .floats l =>
      if ¬ (∀ c ∈ l, posE c = true) ∨ ¬ l.length = ks.length then .error .valueError else .ok l
    | .bools _ => .error .valueError
    | .strs _ => .error .typeError
  match cs with
  | .none => check (.ints (ks.map (· + 20)))
  | .int z => check (.floats (List.replicate ks.length (.fin (z : K))))
  | .bool b => check (.floats (List.replicate ks.length (.fin (if b then 1 else 0))))
  | .float x => check (.floats (List.replicate ks.length x))
  | .list a => check a
  | .arr _ a => check a
  | .other => .error .valueError

/-- `check_ks_and_cs` (`CUR.py:143-201`): shape of the array of ranks, ranks, column counts. -/
def checkKsCs (maxK : Int) (ks : KsArg K) (cs : CsArg K) :
    Except PyErr (List Nat × List Int × List (Ext K)) :=
  match checkKs maxK ks with
  | .error e => .error e
  | .ok (shape, k) =>
    match checkCs k cs with
    | .error e => .error e
    | .ok c => .ok (shape, k, c)

/-! ### UoI_CUR.fit -/

/-- The generators a fit can draw from: the global one of NumPy and the one passed as
    `random_state`. -/
structure World (S : Type) where
  glob : S
  inst : S

/-- A call that takes a `random_state`: an integer seeds a new generator for every call, `None` is
    the global generator, an instance is used and advanced. -/
def withGen {S α : Type} (mk : Int → S) (rs : RandomState) (f : S → α × S) (w : World S) :
    α × World S :=
  match rs with
  | .none => let r := f w.glob; (r.1, { w with glob := r.2 })
  | .inst => let r := f w.inst; (r.1, { w with inst := r.2 })
  | .int s => ((f (mk s)).1, w)

/-- The parts of scikit-learn used: how a generator is seeded, which rows `train_test_split` keeps,
    and the transposed `components_` of the truncated SVD. -/
structure Sklearn (S K : Type) (n d : Nat) where
  seed : Int → S
  split : S → Except PyErr (List (Fin n)) × S
  svd : List (Fin d → K) → S → Except PyErr (Fin d → Nat → K) × S

/-- One bootstrap (`CUR.py:108-120`): the training rows and the right singular vectors. -/
def bootstrap {S : Type} {n d : Nat} (e : Sklearn S K n d) (rs : RandomState) (fracOne : Bool)
    (X : Fin n → Fin d → K) (w : World S) :
    Except PyErr (List (Fin d → K) × (Fin d → Nat → K)) × World S :=
  let (rows, w) :=
    if fracOne then ((.ok (List.finRange n) : Except PyErr (List (Fin n))), w)
    else withGen e.seed rs e.split w
  match rows with
  | .error err => (.error err, w)
  | .ok rows =>
    let train := rows.map X
    let (v, w) := withGen e.seed rs (e.svd train) w
    match v with
    | .error err => (.error err, w)
    | .ok V => (.ok (train, V), w)

/-- The loop over the bootstraps (`CUR.py:107-120`).  Simplification: the singular vectors are
    collected first; the column selection inside the loop (`121-129`) draws from generators of its
    own and cannot fail, so the order does not matter. -/
def bootLoop {S : Type} {n d : Nat} (e : Sklearn S K n d) (rs : RandomState) (fracOne : Bool)
    (X : Fin n → Fin d → K) :
    Nat → World S → Except PyErr (List (List (Fin d → K) × (Fin d → Nat → K)))
  | 0, _ => .ok []
  | m + 1, w =>
    match bootstrap e rs fracOne X w with
    | (.error err, _) => .error err
    | (.ok b, w) =>
      match bootLoop e rs fracOne X m w with
      | .error err => .error err
      | .ok bs => .ok (b :: bs)

/-- `columns[k_idx, bootstrap]` (`CUR.py:126-129`): adding one at distinct positions. -/
def columnRow {d : Nat} (idx : List Nat) (i : Fin d) : Nat := if i.val ∈ idx then 1 else 0

/-- A fitted estimator. -/
structure Fitted (K : Type) where
  columnIndices : List Nat
  /-- `components_`, row by row. -/
  components : List (List K)

/-- `X[:, idx]` of a matrix with `m` columns. -/
def takeCols {m : Nat} (X : List (Fin m → K)) (idx : List Nat) : Except PyErr (List (List K)) :=
  if ∀ i ∈ idx, i < m then
    .ok (X.map fun r => idx.map fun i => if h : i < m then r ⟨i, h⟩ else 0)
  else .error .indexError

/-- The columns selected for rank number `ki` in bootstrap `b`; `draws b ki` are the numbers the
    unseeded generator of that call produces (`CUR.py:123-127`). -/
def selectedIn {d : Nat} (argsort : List K → List Nat) (rs : RandomState) (V : Fin d → Nat → K)
    (k : Nat) (c : Ext K) (u : Nat → K) : List Nat :=
  columnSelect argsort V k c false rs u

/-- Intersection, union and extraction of the columns (`CUR.py:131-140`).  An array of ranks with
    more than one axis makes `V[:, :k]` a `TypeError` (`126`). -/
def combine {d : Nat} (argsort : List K → List Nat) (rs : RandomState)
    (Vs : List (Fin d → Nat → K)) (ks : List Int) (cs : List (Ext K)) (thr : Nat)
    (draws : Nat → Nat → Nat → K) : List Nat :=
  let columns : Nat → Nat → Fin d → Nat := fun ki b =>
    columnRow (selectedIn argsort rs (Vs.getD b fun _ _ => 0) (ks.getD ki 0).toNat
      (cs.getD ki .nan) (draws b ki))
  let intersection : Nat → Fin d → Bool := fun ki i =>
    decide (thr ≤ ((List.range Vs.length).map fun b => columns ki b i).sum)
  let union : Fin d → Bool := fun i =>
    decide (0 < ((List.range ks.length).map fun ki => if intersection ki i then 1 else 0).sum)
  ((List.finRange d).filter fun i => union i).map Fin.val

/-- `UoI_CUR.fit` (`CUR.py:63-141`). -/
def fit {S : Type} {n d : Nat} (argsort : List K → List Nat) (e : Sklearn S K n d)
    (F : Thresholds.FloatSem) (nBoots : Nat) (maxK : Int) (fracOne : Bool) (ss : Thresholds.Arg)
    (rs : RandomState) (X : Fin n → Fin d → K) (ks : KsArg K) (cs : CsArg K) (w : World S)
    (draws : Nat → Nat → Nat → K) : Except PyErr (Fitted K) :=
  match checkKsCs maxK ks cs with
  | .error err => .error err
  | .ok (shape, ks, cs) =>
    match threshold F ss nBoots with
    | .error err => .error err
    | .ok thr =>
      match bootLoop e rs fracOne X nBoots w with
      | .error err => .error err
      | .ok bs =>
        if shape.length ≠ 1 then .error .typeError
        else
          let idx := combine argsort rs (bs.map Prod.snd) ks cs thr draws
          match idx with
          | [] => .ok ⟨[], [[]]⟩
          | _ =>
            match takeCols (List.ofFn X) idx with
            | .error err => .error err
            | .ok comp => .ok ⟨idx, comp⟩

/-- `UoI_CUR.transform` on a fitted estimator (`CUR.py:203-219`); `check_array` rejects a matrix
    without rows or columns. -/
def transform {m : Nat} (f : Fitted K) (X : List (Fin m → K)) : Except PyErr (List (List K)) :=
  if X = [] ∨ m = 0 then .error .valueError else takeCols X f.columnIndices

/-! ### CUR -/

/-- `CUR.fit` (`CUR.py:281-316`), from the singular vectors on; `c=None` means `max_k + 20`. -/
def fitPlain {n d : Nat} (argsort : List K → List Nat) (V : Fin d → Nat → K) (maxK : Nat)
    (c : Option (Ext K)) (rs : RandomState) (X : Fin n → Fin d → K) (u : Nat → K) :
    Except PyErr (Fitted K) :=
  let idx := columnSelect argsort V maxK (c.getD (.fin ((maxK : K) + 20))) true rs u
  match takeCols (List.ofFn X) idx with
  | .error err => .error err
  | .ok comp => .ok ⟨idx, comp⟩

end Verif.Cur
