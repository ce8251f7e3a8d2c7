import Verif.Model.Labels
/-!
Model of a whole call of `MaskedCoefLogisticRegression.fit`
(`/repo/src/pyuoi/linear_model/logistic.py:344-458`) on an object that may have been fitted before: the
attributes it sets on the way, in order, so that also the state after an exception is known.
scikit-learn's `StandardScaler` and `check_X_y` and the optimisation in `_logistic_regression_path` are
parameters.  `n_iter_` is not modelled.  `C` is a Python number, not a NumPy scalar.
-/
namespace Verif.MaskedFit
open Verif.Py Verif.Labels

variable {L K : Type}

/-- The constructor arguments that `fit` uses (`logistic.py:326-343`); `none` stands for a value that is not a
    number. -/
structure Settings (K : Type) where
  C : Option K
  maxIter : Option K
  tol : Option K
  fi : Bool
  standardize : Bool
  /-- `multi_class == 'multinomial'`; otherwise `'auto'`. -/
  multinomial : Bool
  warmStart : Bool

/-- The attributes that `fit` sets (`logistic.py:382`, `413`, `426-432`, `438-458`); `none` before they are set.
    `classes_` holds first the labels (444), then positions (382). -/
structure Obj (L K : Type) where
  scaler : Option (List K × List K)
  classes : Option (List L ⊕ List Nat)
  outDim : Option Nat
  coef : Option (List (List K))
  intercept : Option (List K)
  deriving DecidableEq

/-- An object that has not been fitted. -/
def Obj.fresh : Obj L K := ⟨none, none, none, none, none⟩

/-- What `_logistic_regression_path` is called with (`logistic.py:415-423`), apart from settings that are
    passed on. -/
structure Call (K : Type) where
  X : List (List K)
  y : List Nat
  multi : Bool
  C : K
  tol : K
  maxIter : K
  start : Option (List (List K))
  mask : Option (List (List K))

/-- Parts from outside: `mean_` and `scale_` of `StandardScaler().fit(X)` (`logistic.py:440-441`),
    `check_X_y` (379-380), and the optimisation (614-741), which returns one row per class, the intercept
    last. -/
structure Outside (K : Type) where
  scaler : List (List K) → List K × List K
  check : List (List K) → List Nat → Except PyErr Unit
  optimise : Call K → Except PyErr (List (List K))

/-- `StandardScaler.transform` of a row (`logistic.py:441`). -/
def standard [Sub K] [Div K] (sc : List K × List K) (x : List K) : List K :=
  List.zipWith (· / ·) (List.zipWith (· - ·) x sc.1) sc.2

/-- The checks at the beginning (`logistic.py:365-373`): `C`, `max_iter` and `tol` have to be numbers and
    not negative. -/
def validate [LinearOrder K] [Zero K] (s : Settings K) : Except PyErr (K × K × K) :=
  match s.C, s.maxIter, s.tol with
  | some C, some m, some t => if C < 0 ∨ m < 0 ∨ t < 0 then .error .valueError else .ok (C, m, t)
  | _, _, _ => .error .valueError

/-- `coef_mask.reshape(n_classes, -1)` (`logistic.py:401-402`) for a mask of the shape given by its rows;
    no change for a binary problem. -/
def reshapeMask (multi : Bool) (rows : Nat) (m : List (List K)) : Except PyErr (List (List K)) :=
  if multi then
    if m.flatten.length % rows = 0 then
      .ok ((List.range rows).map fun c =>
        (m.flatten.drop (c * (m.flatten.length / rows))).take (m.flatten.length / rows))
    else .error .valueError
  else .ok m

/-- `warm_start_coef` (`logistic.py:404-411`): `coef_` with `intercept_` appended as a column. -/
def warmCoef (s : Settings K) (o : Obj L K) : Except PyErr (Option (List (List K))) :=
  match (if s.warmStart then o.coef else none) with
  | none => .ok none
  | some w =>
    if s.fi then
      match o.intercept with
      | none => .error .attributeError
      | some b =>
        if w.length = b.length then .ok (some (List.zipWith (fun r x => r ++ [x]) w b))
        else .error .valueError
    else .ok (some w)

/-- Whether `coef` can be written into `w0` (`logistic.py:595-604`), `p` being the number of features and
    `cols` the number of columns of `w0`: for a binary problem one row of `p` or `cols` entries; for a
    multinomial one NumPy repeats a single row for all `k` classes. -/
def startFits (multi : Bool) (k p cols : Nat) (coef : List (List K)) : Bool :=
  let r := coef.length
  let c := (coef.headD []).length
  if multi then (r == k || r == 1) && decide (c ≤ cols)
  else r == 1 && (c == p || c == cols)

/-- `_logistic_regression_path` (`logistic.py:461-741`): the start is checked, the optimisation divides by
    `C` unless the mask is zero everywhere (667-681, 712). -/
def path [Zero K] [Add K] [DecidableEq K] (out : Outside K) (k p cols : Nat) (c : Call K) :
    Except PyErr (List (List K)) :=
  if (c.start.all (startFits c.multi k p cols)) = false then .error .valueError
  else if c.C = 0 ∧ (c.mask.all fun m => decide (m.flatten.foldr (· + ·) 0 ≠ 0)) = true then
    .error .zeroDivision
  else out.optimise c

/-- `fit` (`logistic.py:344-458`): the object afterwards and the exception, if any. -/
def fit [LinearOrder L] [LinearOrder K] [Field K] (s : Settings K) (out : Outside K) (o : Obj L K)
    (X : List (List K)) (y : List L) (mask : Option (List (List K))) : Obj L K × Except PyErr Unit :=
  match validate s with
  | .error e => (o, .error e)
  | .ok (C, maxIter, tol) =>
    -- _pre_fit
    let o1 := { o with scaler := if s.standardize then some (out.scaler X) else o.scaler }
    let X1 := if s.standardize then X.map (standard (out.scaler X)) else X
    let y1 := encode y
    let o2 := { o1 with classes := some (.inl (uniq y)), outDim := some (outputDim s.multinomial y) }
    match out.check X1 y1 with
    | .error e => (o2, .error e)
    | .ok () =>
      let o3 := { o2 with classes := some (.inr (uniq y1)) }
      let k := (uniq y1).length
      let multi := s.multinomial || decide (2 < k)
      match maskedRows s.multinomial k with
      | .error e => (o3, .error e)
      | .ok rows =>
        let mask' := match mask with
          | none => Except.ok none
          | some m => (reshapeMask multi rows m).map some
        match mask' with
        | .error e => (o3, .error e)
        | .ok mask' =>
          match warmCoef s o3 with
          | .error e => (o3, .error e)
          | .ok start =>
            let o4 := { o3 with intercept := some (List.replicate rows 0) }
            let p := (X1.headD []).length
            let cols := p + (if s.fi then 1 else 0)
            match path out k p cols ⟨X1, y1, multi, C, tol, maxIter, start, mask'⟩ with
            | .error e => (o4, .error e)
            | .ok W =>
              let w := if s.fi then W.map List.dropLast else W
              let b := if s.fi then W.map (·.getLastD 0) else List.replicate rows 0
              -- _post_fit
              let w' := if s.standardize then
                w.map fun r => List.zipWith (· / ·) r (out.scaler X).2 else w
              ({ o4 with coef := some w', intercept := some b }, .ok ())

/-- `decision_function` of a fitted object at one row (inherited from scikit-learn at `logistic.py:290`):
    `x @ coef_.T + intercept_`, which NumPy refuses when there is not one intercept per row of `coef_`
    (or a single one or a single row). -/
def Obj.decision [Zero K] [Add K] [Mul K] (o : Obj L K) (x : List K) : Except PyErr (List K) :=
  match o.coef, o.intercept with
  | some w, some b =>
    if w.length = b.length then .ok (List.zipWith (fun w b => (List.zipWith (· * ·) x w).foldr (· + ·) 0 + b) w b)
    else if b.length = 1 then .ok (w.map fun w => (List.zipWith (· * ·) x w).foldr (· + ·) 0 + b.headD 0)
    else if w.length = 1 then
      .ok (b.map fun b => (List.zipWith (· * ·) x (w.headD [])).foldr (· + ·) 0 + b)
    else .error .valueError
  | _, _ => .error .notFitted

end Verif.MaskedFit
