import Verif.Model.Datasets
import Verif.Model.Synthetic
import Verif.Model.Utils
/-!
Model of `make_classification` (`/repo/src/pyuoi/datasets/__init__.py:99-176`) as a whole: the random state, the samples, the
coefficients (`Datasets.makeW`) and the labels.
-/
namespace Verif.MakeClassification
open Verif.Py Verif.Datasets

/-- The argument `random_state` (`datasets/__init__.py:100,116-117`): `None`, a Python integer, a NumPy integer, a `RandomState`
    in a given state. -/
inductive Seed (σ : Type) where
  | none_
  | int (n : Int)
  | npInt (n : Int)
  | state (s : σ)

/-- The states that `np.random.RandomState()` and `np.random.RandomState(n)` start in (`datasets/__init__.py:127,130`). -/
structure Source (σ : Type) where
  fresh : σ
  seeded : Int → σ

variable {σ : Type}

/-- `np.random.RandomState(n)` (`datasets/__init__.py:127`): seeds have 32 bits, others are a `ValueError`. -/
def randomState (g : Source σ) (n : Int) : Except PyErr σ :=
  if 0 ≤ n ∧ n < 2 ^ 32 then .ok (g.seeded n) else .error .valueError

/-- Lines 126-133 of `datasets/__init__.py`: a NumPy integer is not an `int`, so it is taken for the generator itself, which has
    no method `randn`. -/
def classState (g : Source σ) : Seed σ → Except PyErr σ
  | .int n => randomState g n
  | .none_ => .ok g.fresh
  | .state s => .ok s
  | .npInt _ => .error .attributeError

/-- `check_random_state(random_state)` of scikit-learn, as `make_linear_regression` and `make_poisson_regression` call it
    (`datasets/__init__.py:62`, `223`): every integer type is a seed. -/
def checkRandomState (g : Source σ) : Seed σ → Except PyErr σ
  | .int n => randomState g n
  | .none_ => .ok g.fresh
  | .state s => .ok s
  | .npInt n => randomState g n

/-- `rng.binomial(1, p)` and `rng.multinomial(1, p)` (`datasets/__init__.py:167`, `171`). -/
structure Draws (σ : Type) where
  binomial : ℝ → σ → Nat × σ
  multinomial : List ℝ → σ → List Nat × σ

/-- `softmax(log_p)` for one sample (`datasets/__init__.py:166`, `utils.py:15-17`). -/
noncomputable def softmaxRow (l : List ℝ) : List ℝ :=
  let e := l.map fun v => Real.exp (v - l.foldr max (l.headD 0))
  e.map (· / e.sum)

/-- One response after the other with the same generator (`datasets/__init__.py:167`, `171`). -/
def drawEach {α : Type} (draw : α → σ → Except PyErr (Nat × σ)) : List α → σ → Except PyErr (List Nat)
  | [], _ => .ok []
  | a :: as, s =>
    match draw a s with
    | .error e => .error e
    | .ok (y, s) =>
      match drawEach draw as s with
      | .error e => .error e
      | .ok ys => .ok (y :: ys)

/-- The label of one sample for more than two classes: the position of the one (`datasets/__init__.py:167-168`). -/
noncomputable def drawClass (d : Draws σ) (l : List ℝ) (s : σ) : Except PyErr (Nat × σ) :=
  let (v, s) := d.multinomial (softmaxRow l) s
  match argmax v with
  | .error e => .error e
  | .ok j => .ok (j, s)

/-- The label of one sample for two classes (`datasets/__init__.py:170-171`). -/
noncomputable def drawBinary (d : Draws σ) (l : List ℝ) (s : σ) : Except PyErr (Nat × σ) :=
  .ok (d.binomial (Utils.sigmoid (l.headD 0)) s)

/-- Lines 162-171 of `datasets/__init__.py` for samples that are finite: `argmax` needs a sample, and `np.squeeze` makes the
    log-probability of a single one a scalar. -/
noncomputable def labels (d : Draws σ) (nClasses : Nat) (L : List (List ℝ)) (s : σ) : Except PyErr (List Nat) :=
  if 2 < nClasses then
    if L = [] then .error .valueError else drawEach (drawClass d) L s
  else if L.length = 1 then .error .typeError
  else drawEach (drawBinary d) L s

/-- The entries of a sample without NaN; a NaN probability is refused by `binomial` and by `multinomial`
    (`datasets/__init__.py:167`, `171`). -/
def finiteRow : List (Ext ℝ) → Except PyErr (List ℝ) := mapE fun v =>
  match v with
  | .fin v => .ok v
  | _ => .error .valueError

/-- `make_classification` (`datasets/__init__.py:99-176`). -/
noncomputable def makeClassification (g : Source σ) (r : Rng σ ℝ) (d : Draws σ) (m n : Nat) (k : Int) (nClasses : Nat)
    (shared : Bool) (seed : Seed σ) (wScale : ℝ) (incl : Bool) : Except PyErr (Out ℝ (List Nat)) :=
  match classState g seed with
  | .error e => .error e
  | .ok s =>
    let (X, s) := drawRows r n m s
    let ((ws, c), s) := makeW r n k nClasses shared incl wScale s
    if ¬ 2 < nClasses ∧ m = 1 then .error .typeError
    else
      match mapE finiteRow (X.map standardizeSample) with
      | .error e => .error e
      | .ok X =>
        match labels d nClasses (X.map (logP incl ws c)) s with
        | .error e => .error e
        | .ok y => .ok ⟨X, y, ws, c⟩

end Verif.MakeClassification
