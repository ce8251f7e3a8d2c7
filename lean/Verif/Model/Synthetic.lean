import Verif.Model.Datasets
/-!
Model of the parts of `/repo/src/pyuoi/datasets/__init__.py` that decide how the response depends on the
features: the noise of `make_linear_regression`, the class probabilities of `make_classification`, and
`load_swimmer`.  The rest of the generators is in `Model/Datasets`.
-/
namespace Verif.Datasets
open Verif.Py

/-- `np.var(eta)` (`datasets/__init__.py:90`); `np.var` of an empty array is NaN, here zero. -/
noncomputable def npVar (l : List ℝ) : ℝ := (l.map fun e => (e - l.sum / l.length) ^ 2).sum / l.length

/-- `np.sqrt(signal_var / snr)` (`datasets/__init__.py:91-92`): a NumPy float divided by a number gives an
    infinity or NaN when that is zero, and the square root of a negative number is NaN. -/
noncomputable def noiseScale (var snr : ℝ) : Ext ℝ :=
  if snr = 0 then if var = 0 then .nan else .pinf
  else if var / snr < 0 then .nan else .fin (Real.sqrt (var / snr))

/-- One response `eta + noise` with noise `0 + scale * z` for a draw `z` of the standard normal distribution
    (`datasets/__init__.py:92-93`; `rng.normal` of NumPy accepts an infinite or NaN scale). -/
noncomputable def addNoise (scale : Ext ℝ) (e z : ℝ) : Ext ℝ :=
  match scale with
  | .fin s => .fin (e + s * z)
  | .pinf => if z = 0 then .nan else if 0 < z then .pinf else .ninf
  | _ => .nan

/-- The response of `make_linear_regression` (`datasets/__init__.py:89-93`): `z` are the standard normal
    draws behind `rng.normal(loc=0, scale=..., size=eta.shape)`. -/
noncomputable def linearResponse {σ : Type} (snr : ℝ) (z : Nat → σ → List ℝ) (eta : List ℝ) (s : σ) :
    List (Ext ℝ) :=
  List.zipWith (addNoise (noiseScale (npVar eta) snr)) eta (z eta.length s)

/-- `make_linear_regression` (`datasets/__init__.py:17-96`). -/
noncomputable def makeLinear {σ : Type} (r : Rng σ ℝ) (z : Nat → σ → List ℝ) (snr : ℝ)
    (nSamples nFeatures : Nat) (nInformative : Int) (beta : Option (List ℝ)) (incl : Bool) (s : σ) :
    Except PyErr (Out ℝ (List (Ext ℝ))) :=
  makeRegression r (linearResponse snr z) nSamples nFeatures nInformative beta incl s

/-- `log_p = X.dot(w)`, with `log_p += intercept`, for one (standardised) sample: one entry per row of the
    coefficients (`datasets/__init__.py:162-164`). -/
noncomputable def logP (incl : Bool) (ws : List (List ℝ)) (c : List ℝ) (x : List ℝ) : List ℝ :=
  List.zipWith (fun w k => if incl then dot x w + k else dot x w) ws c

/-! ### load_swimmer -/

/-- The outcome of opening an HDF5 file (h5py, used at `datasets/__init__.py:10`). -/
inductive Opened (α : Type) where
  | ok (v : α)
  | osError
  deriving DecidableEq, Repr

/-- The file `data/Swimmer.h5`: whether it is there and may be written to, and the data set `Y` of shape
    `(32, 32, 256)` as its flat content (`datasets/__init__.py:10-11`). -/
structure SwimmerFile (K : Type) where
  exists_ : Bool
  writable : Bool
  Y : Nat → K

/-- `h5py.File(name, 'r+')` (`datasets/__init__.py:10`): for reading and writing. -/
def openRW {K : Type} (f : SwimmerFile K) : Opened (Nat → K) :=
  if f.exists_ && f.writable then .ok f.Y else .osError

/-- The flat content of `a.T` for an array `a` of shape `(n0, n1, n2)` (`datasets/__init__.py:13`). -/
def transposed {K : Type} (n0 n1 n2 : Nat) (a : Nat → K) (m : Nat) : K :=
  a ((m % n0 * n1 + m / n0 % n1) * n2 + m / (n0 * n1))

/-- `load_swimmer(flatten=True)` (`datasets/__init__.py:7-14`): the entry in a row and a column of the array
    reshaped to `(256, 1024)`. -/
def loadSwimmer {K : Type} (f : SwimmerFile K) : Opened (Nat → Nat → K) :=
  match openRW f with
  | .ok Y => .ok fun row col => transposed 32 32 256 Y (row * 1024 + col)
  | .osError => .osError

end Verif.Datasets
