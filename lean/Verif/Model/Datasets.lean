import Mathlib.Analysis.Real.Sqrt
import Mathlib.Data.List.Basic
import Verif.Py.Reduce
import Verif.Py.Ext
/-!
Model of `/repo/src/pyuoi/datasets/__init__.py`: the three generators of synthetic data.  The random
number generator is a record of state transformers; nothing is assumed about it here.
-/
namespace Verif.Datasets
open Verif.Py

/-- The methods of `np.random.RandomState` used; `σ` is its state.  `gaussian` and `coefs` are vectors
    of draws of a given size from the normal distribution and from the distribution of the
    coefficients. -/
structure Rng (σ K : Type) where
  gaussian : Nat → σ → List K × σ
  coefs : Nat → σ → List K × σ
  shuffle : List K → σ → List K × σ
  permutation : Nat → σ → List Nat × σ

variable {σ K : Type} [Field K] [LinearOrder K]

/-- Length of the slice `a[:k]` of a vector with `n` entries. -/
def sliceLen (n : Nat) (k : Int) : Nat :=
  if 0 ≤ k then min k.toNat n else (n + k).toNat

/-- `zero_idx = np.zeros(n_features); zero_idx[:n_informative] = 1`
    (`datasets/__init__.py:76-77`, `236-237`). -/
def informative (n : Nat) (k : Int) : List K :=
  List.replicate (sliceLen n k) 1 ++ List.replicate (n - sliceLen n k) 0

/-- The coefficients of `make_linear_regression` and `make_poisson_regression`
    (`datasets/__init__.py:68-80`, `229-240`): `some b` is a supplied vector. -/
def makeBeta (r : Rng σ K) (n : Nat) (k : Int) (beta : Option (List K)) (s : σ) : List K × σ :=
  match beta with
  | some b => (b, s)
  | none =>
    let (draws, s) := r.coefs n s
    let (mask, s) := r.shuffle (informative n k) s
    (List.zipWith (· * ·) draws mask, s)

/-- The intercept of both functions (`datasets/__init__.py:82-86`, `242-246`). -/
def makeIntercept (r : Rng σ K) (incl : Bool) (s : σ) : K × σ :=
  if incl then
    let (v, s) := r.coefs 1 s
    (v.headD 0, s)
  else (0, s)

/-- What a generator returns. -/
structure Out (K Y : Type) where
  X : List (List K)
  y : Y
  coef : List (List K)
  intercept : List K

/-- `rows` draws of a vector of size `cols`. -/
def drawRows (r : Rng σ K) (cols : Nat) : Nat → σ → List (List K) × σ
  | 0, s => ([], s)
  | m + 1, s =>
    let (x, s) := r.gaussian cols s
    let (xs, s) := drawRows r cols m s
    (x :: xs, s)

/-- Inner product. -/
def dot (a b : List K) : K := (List.zipWith (· * ·) a b).sum

/-- `make_linear_regression` (`datasets/__init__.py:17-96`) and `make_poisson_regression`
    (`179-251`): they differ in how the response is drawn from `eta` (`respond`).  `X_loc` and
    `X_scale` are part of `gaussian`.  A supplied `beta` whose length is not `n_features` makes
    `np.dot` fail. -/
def makeRegression {Y : Type} (r : Rng σ K) (respond : List K → σ → Y) (nSamples nFeatures : Nat)
    (nInformative : Int) (beta : Option (List K)) (incl : Bool) (s : σ) : Except PyErr (Out K Y) :=
  let (X, s) := drawRows r nFeatures nSamples s
  let (b, s) := makeBeta r nFeatures nInformative beta s
  let (c, s) := makeIntercept r incl s
  if b.length ≠ nFeatures then .error .valueError
  else .ok ⟨X, respond (X.map fun x => c + dot x b) s, [b], [c]⟩

/-! ### make_classification -/

/-- `w[idxs] = 0.` for one column. -/
def zeroAt (idxs : List Nat) (w : List K) : List K := w.mapIdx fun i v => if i ∈ idxs then 0 else v

/-- `rng.permutation(n_features)[:n_not_informative]` (`datasets/__init__.py:145,149,157`). -/
def zeroed (r : Rng σ K) (n : Nat) (notInf : Int) (s : σ) : List Nat × σ :=
  let (p, s) := r.permutation n s
  (p.take (sliceLen n notInf), s)

/-- The loop over the classes with a separate support for each (`datasets/__init__.py:148-150`). -/
def zeroEach (r : Rng σ K) (n : Nat) (notInf : Int) : List (List K) → σ → List (List K) × σ
  | [], s => ([], s)
  | w :: ws, s =>
    let (idxs, s) := zeroed r n notInf s
    let (ws, s) := zeroEach r n notInf ws s
    (zeroAt idxs w :: ws, s)

/-- The coefficients and intercepts of `make_classification` (`datasets/__init__.py:126-160`), one row
    per class (one row for two classes): draws, intercept, sparsity, scaling by `w_scale`. -/
def makeW (r : Rng σ K) (n : Nat) (k : Int) (nClasses : Nat) (shared incl : Bool) (wScale : K) (s : σ) :
    (List (List K) × List K) × σ :=
  let notInf : Int := n - k
  if 2 < nClasses then
    let (ws, s) := drawRows r n nClasses s
    let (c, s) :=
      if incl then
        let (c, s) := r.gaussian nClasses s
        (c.map fun v => v - c.foldr max (c.headD 0), s)
      else (List.replicate nClasses 0, s)
    let (ws, s) :=
      if 0 < notInf then
        if shared then
          let (idxs, s) := zeroed r n notInf s
          (ws.map (zeroAt idxs), s)
        else zeroEach r n notInf ws s
      else (ws, s)
    ((ws.map fun w => w.map (· * wScale), c), s)
  else
    let (ws, s) := drawRows r n 1 s
    let (c, s) := if incl then r.gaussian 1 s else ([0], s)
    let (ws, s) :=
      if 0 < notInf then
        let (idxs, s) := zeroed r n notInf s
        (ws.map (zeroAt idxs), s)
      else (ws, s)
    ((ws.map fun w => w.map (· * wScale), c), s)

/-- `X -= X.mean(axis=-1); X /= X.std(axis=-1)` for one sample (`datasets/__init__.py:133-134`): NaN if
    the standard deviation is zero, because then the numerator is zero too. -/
noncomputable def standardizeSample (x : List ℝ) : List (Ext ℝ) :=
  let m := x.sum / x.length
  let sd := Real.sqrt ((x.map fun v => (v - m) ^ 2).sum / x.length)
  x.map fun v => if sd = 0 then .nan else .fin ((v - m) / sd)

/-- The responses for two classes (`datasets/__init__.py:169-170`): `np.squeeze(log_p)` of a single
    sample is a scalar array, over which one cannot iterate; a NaN probability is refused. -/
def binaryResponses (binomial : K → Nat) (p : List (Ext K)) : Except PyErr (List Nat) :=
  if p.length = 1 then .error .typeError
  else mapE (fun v => match v with
    | .fin v => .ok (binomial v)
    | _ => .error .valueError) p

end Verif.Datasets
