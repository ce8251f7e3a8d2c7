import Verif.Model.Poisson
import Verif.Model.LbfgsPy
import Verif.Py.Float
/-!
The L-BFGS fit of `/repo/src/pyuoi/linear_model/poisson.py`, with the optimiser of
`/repo/src/pyuoi/lbfgs`: the vector handed to `fmin_lbfgs`, the objective on it, the arguments, and what
becomes of the result.  Real arithmetic; the last section has numbers with infinities and NaN, for a start
at an intercept of minus infinity.
-/
namespace Verif.Poisson
open Verif.Py Verif.Scaling Verif.Lbfgs

variable {n p : Nat}

/-- The settings of a `Poisson` object that matter to this solver (`poisson.py:53-64`). -/
structure LArgs where
  alpha : ℝ
  l1 : ℝ
  tol : ℝ
  maxIter : Nat
  fi : Bool
  std : Bool
  warm : Bool

/-- The length of the vector that is optimised (`poisson.py:93`, `104-105`). -/
def LArgs.size (a : LArgs) (p : Nat) : Nat := p + if a.fi then 1 else 0

/-- `coef[:n_features]` (`poisson.py:127-131`, `731-736`). -/
def coefPart (a : LArgs) {F : Type} (x : Fin (a.size p) → F) : Fin p → F :=
  fun j => x ⟨j, lt_of_lt_of_le j.isLt (Nat.le_add_right _ _)⟩

/-- `coef[-1]` if there is an extra entry (`poisson.py:129`, `732-733`). -/
def interceptPart (a : LArgs) {F : Type} (x : Fin (a.size p) → F) : Option F :=
  if h : a.fi = true then some (x ⟨p, by simp [LArgs.size, h]⟩) else none

/-- `np.append(coef, intercept)`, or `coef` (`poisson.py:104-105`). -/
def joinParts (a : LArgs) {F : Type} (c : Fin p → F) (b : F) : Fin (a.size p) → F :=
  fun i => if h : i.val < p then c ⟨i, h⟩ else b

/-- `_poisson_loss_and_grad` on the vector (`poisson.py:107-111`, `701-751`). -/
noncomputable def flatLoss (a : LArgs) (X : Fin n → Fin p → ℝ) (y sw : Fin n → ℝ)
    (x : Fin (a.size p) → ℝ) : ℝ × (Fin (a.size p) → ℝ) :=
  let g := lossGrad X y sw (a.alpha * (1 - a.l1)) (coefPart a x) (interceptPart a x)
  (g.1, joinParts a g.2.1 (g.2.2.getD 0))

/-- `func` as the callable of `fmin_lbfgs`; there is no progress callable (`poisson.py:107-111`,
    `117`). -/
noncomputable def poisCallables (a : LArgs) (X : Fin n → Fin p → ℝ) (y sw : Fin n → ℝ) :
    Callables (a.size p) Unit ℝ where
  sqrt := Real.sqrt
  f x := (.ok (flatLoss a X y sw x).1, (flatLoss a X y sw x).2)
  progress s _ _ _ _ _ _ _ _ := (.ok none, s)

/-- The arguments of the call (`poisson.py:113-122`); the others have their defaults
    (`lbfgs/__init__.py:11-15`). -/
noncomputable def poisArgs (a : LArgs) (p : Nat) : Args ℝ where
  par :=
    { m := 10, epsilon := a.tol, past := 0, delta := 0, maxIterations := a.maxIter, linesearch := 0,
      maxLinesearch := 20, minStep := 1 / 10 ^ 20, maxStep := 10 ^ 20, ftol := 1 / 10 ^ 4,
      wolfe := 9 / 10, gtol := 9 / 10, xtol := 1 / 10 ^ 30, c := a.alpha * a.l1, start := 0,
      stop := p }
  lineSearch := "default"

/-- The data given to the solver (`poisson.py:81`, `310-315`). -/
noncomputable def preX (a : LArgs) (X : Fin n → Fin p → ℝ) : Fin n → Fin p → ℝ :=
  if a.std then fun i => (standardScaler true X).apply (X i) else X

/-- The starting vector (`poisson.py:93-105`).  Nothing if the previous intercept is minus infinity:
    real numbers do not have it, see `fltStart`. -/
noncomputable def poisStart (a : LArgs) (X : Fin n → Fin p → ℝ) (o : PObj p) :
    Option (Fin (a.size p) → ℝ) :=
  let coef : Fin p → ℝ :=
    if a.warm then
      match o.coef with
      | some c => if a.std then fun j => c j * (standardScaler true X).scale j else c
      | none => fun _ => 0
    else fun _ => 0
  if a.warm && a.fi then
    match o.intercept with
    | some (some b) => some (joinParts a coef b)
    | some none => none
    | none => some (joinParts a coef 0)
  else some (joinParts a coef 0)

/-- The attributes after the optimisation (`poisson.py:126-131`, `141`, `317-323`): without an intercept
    `intercept_` is left as it was. -/
noncomputable def poisStore (a : LArgs) (X : Fin n → Fin p → ℝ) (o : PObj p) (x : Fin (a.size p) → ℝ) :
    PObj p :=
  match interceptPart a x with
  | some b =>
    let q := poisPost a.std true (standardScaler true X) (coefPart a x) (b : WithBot ℝ)
    ⟨some q.1, some q.2⟩
  | none => { o with coef := some (poisPost a.std false (standardScaler true X) (coefPart a x) 0).1 }

/-- `Poisson.fit` with `solver='lbfgs'` (`poisson.py:66-142`): the object afterwards or the exception,
    and the warning if there is one. -/
def LbfgsFit (a : LArgs) (X : Fin n → Fin p → ℝ) (y sw : Fin n → ℝ) (o : PObj p)
    (r : Except PyErr (PObj p)) (warning : Option String) : Prop :=
  ((∀ i i', y i = y i') ∧ r = .ok ⟨some fun _ => 0, some (poisInterceptOnly y)⟩ ∧ warning = none) ∨
  ((¬ ∀ i i', y i = y i') ∧ ∃ x0, poisStart a X o = some x0 ∧
    ∃ res tr, Fmin (poisCallables a (preX a X) y sw) (poisArgs a p) x0 () res tr ∧
      ((∃ x w, res = .returned x w ∧ r = .ok (poisStore a X o x) ∧ warning = w) ∨
        ∃ e msg, res = .raised e msg ∧ r = .error e ∧ warning = none))

/-! ### Numbers with infinities -/

/-- `np.sum`. -/
def fsum {m : Nat} (f : Fin m → Flt) : Flt := ((List.finRange m).map f).foldl (· + ·) 0

/-- `_poisson_loss_and_grad` (`poisson.py:701-751`) without sample weights, on numbers that may be
    infinite; `fexp` is `np.exp`. -/
def fltLoss (fexp : Flt → Flt) (a : LArgs) (l2 : Flt) (X : Fin n → Fin p → Flt) (y : Fin n → Flt)
    (x : Fin (a.size p) → Flt) : Flt × (Fin (a.size p) → Flt) :=
  let coef := coefPart a x
  let b := (interceptPart a x).getD 0
  let eta := fun i => b + fsum fun j => X i j * coef j
  let out := -(fsum fun i => 1 * (y i * eta i - fexp (eta i))) / (n : Flt) +
    .fin (1 / 2) * l2 * fsum fun j => coef j * coef j
  let yRes := fun i => 1 * (y i - fexp (eta i))
  (out, joinParts a (fun j => -(fsum fun i => X i j * yRes i) / (n : Flt) + l2 * coef j)
    (-(fsum yRes / (n : Flt))))

/-- The callable on such numbers (`poisson.py:107-111`); `fsqrt` is the square root of the C library. -/
def fltCallables (fexp fsqrt : Flt → Flt) (a : LArgs) (l2 : Flt) (X : Fin n → Fin p → Flt)
    (y : Fin n → Flt) : Callables (a.size p) Unit Flt where
  sqrt := fsqrt
  f x := (.ok (fltLoss fexp a l2 X y x).1, (fltLoss fexp a l2 X y x).2)
  progress s _ _ _ _ _ _ _ _ := (.ok none, s)

/-- The arguments of the call (`poisson.py:113-122`) on such numbers. -/
def fltArgs (c tol : Flt) (maxIter p : Nat) : Args Flt where
  par :=
    { m := 10, epsilon := tol, past := 0, delta := 0, maxIterations := maxIter, linesearch := 0,
      maxLinesearch := 20, minStep := .fin (1 / 10 ^ 20), maxStep := .fin (10 ^ 20),
      ftol := .fin (1 / 10 ^ 4), wolfe := .fin (9 / 10), gtol := .fin (9 / 10), xtol := .fin (1 / 10 ^ 30),
      c := c, start := 0, stop := p }
  lineSearch := "default"

/-- The starting vector of a warm start after a fit to a response of zeros (`poisson.py:85-90`,
    `96-105`): coefficients of zero, times the scale if the data are standardized, and an intercept of
    minus infinity. -/
def fltStart (a : LArgs) (scale : Fin p → Flt) : Fin (a.size p) → Flt :=
  joinParts a (fun j => if a.std then 0 * scale j else 0) .ninf

/-- `predict_mean` at one row `z` (`poisson.py:126-131`, `176-178`, `317-323`) when the optimiser returned
    `x`. -/
def fltPredict (fexp : Flt → Flt) (a : LArgs) (scale mean : Fin p → Flt) (x : Fin (a.size p) → Flt)
    (z : Fin p → Flt) : Flt :=
  let b := (interceptPart a x).getD 0
  let coef := coefPart a x
  if a.std then
    fexp ((b + -(fsum fun j => mean j * coef j / scale j)) + fsum fun j => z j * (coef j / scale j))
  else fexp (b + fsum fun j => z j * coef j)

end Verif.Poisson
