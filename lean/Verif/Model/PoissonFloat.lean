import Verif.Model.Poisson
import Verif.Py.Ext
/-!
The coordinate-descent Poisson solver of `/repo/src/pyuoi/linear_model/poisson.py` in floating point: numbers are reals, NaN
or infinite, with the IEEE rules.  Simplifications: sums, products and quotients of finite numbers are exact and do not
overflow; `exp` of finite numbers overflows above `hi` and underflows to zero below `lo` (for `double`, 709.78 and -745.13).
Without sample weights and warm start.
-/
namespace Verif.PoissonFloat
open Verif.Py Verif.Poisson

variable {n p : Nat}

/-- `a + b` (`poisson.py:373`). -/
noncomputable def add : Ext ℝ → Ext ℝ → Ext ℝ
  | .fin a, .fin b => .fin (a + b)
  | .nan, _ => .nan
  | _, .nan => .nan
  | .pinf, .ninf => .nan
  | .ninf, .pinf => .nan
  | .pinf, _ => .pinf
  | _, .pinf => .pinf
  | .ninf, _ => .ninf
  | _, .ninf => .ninf

/-- `-a` (`poisson.py:299`). -/
noncomputable def neg : Ext ℝ → Ext ℝ
  | .fin a => .fin (-a)
  | .nan => .nan
  | .pinf => .ninf
  | .ninf => .pinf

/-- `a - b` (`poisson.py:299`). -/
noncomputable def sub (a b : Ext ℝ) : Ext ℝ := add a (neg b)

/-- The infinity with the sign of `a`, or of `-a`; NaN for zero (`poisson.py:375`). -/
noncomputable def infOf (a : ℝ) (pos : Bool) : Ext ℝ :=
  open Classical in
  if a = 0 then .nan else if 0 < a then (if pos then .pinf else .ninf) else (if pos then .ninf else .pinf)

/-- `a * b` (`poisson.py:299-300`). -/
noncomputable def mul : Ext ℝ → Ext ℝ → Ext ℝ
  | .fin a, .fin b => .fin (a * b)
  | .nan, _ => .nan
  | _, .nan => .nan
  | .fin a, .pinf => infOf a true
  | .fin a, .ninf => infOf a false
  | .pinf, .fin a => infOf a true
  | .ninf, .fin a => infOf a false
  | .pinf, .pinf => .pinf
  | .pinf, .ninf => .ninf
  | .ninf, .pinf => .ninf
  | .ninf, .ninf => .pinf

/-- `a / b` (`poisson.py:375`): by zero an infinity, NaN for zero by zero. -/
noncomputable def div : Ext ℝ → Ext ℝ → Ext ℝ
  | .fin a, .fin b => open Classical in if b = 0 then infOf a true else .fin (a / b)
  | .nan, _ => .nan
  | _, .nan => .nan
  | .fin _, .pinf => .fin 0
  | .fin _, .ninf => .fin 0
  | .pinf, .fin a => open Classical in if a < 0 then .ninf else .pinf
  | .ninf, .fin a => open Classical in if a < 0 then .pinf else .ninf
  | _, _ => .nan

/-- `np.abs` (`poisson.py:342`). -/
noncomputable def abs : Ext ℝ → Ext ℝ
  | .fin a => .fin |a|
  | .nan => .nan
  | _ => .pinf

/-- `np.sign` (`poisson.py:343`). -/
noncomputable def sgn : Ext ℝ → Ext ℝ
  | .fin a => .fin (sign a)
  | .nan => .nan
  | .pinf => .fin 1
  | .ninf => .fin (-1)

/-- `a < t` for a finite `t` (`poisson.py:244`): false for NaN. -/
def Below (a : Ext ℝ) (t : ℝ) : Prop :=
  match a with
  | .fin x => x < t
  | .ninf => True
  | _ => False

/-- `a > t` for a finite `t` (`poisson.py:342`): false for NaN. -/
def Above (a : Ext ℝ) (t : ℝ) : Prop :=
  match a with
  | .fin x => t < x
  | .pinf => True
  | _ => False

/-- `np.exp` (`poisson.py:374`). -/
noncomputable def exp (lo hi : ℝ) : Ext ℝ → Ext ℝ
  | .fin x => open Classical in if hi < x then .pinf else if x < lo then .fin 0 else .fin (Real.exp x)
  | .nan => .nan
  | .pinf => .pinf
  | .ninf => .fin 0

/-- A sum (`np.sum`, `np.dot`; `poisson.py:285`). -/
noncomputable def sum {m : Nat} (f : Fin m → Ext ℝ) : Ext ℝ :=
  (List.finRange m).foldl (fun s i => add s (f i)) (.fin 0)

/-- `np.dot(X, coef)` for one row (`poisson.py:373`). -/
noncomputable def dot (x : Fin p → ℝ) (coef : Fin p → Ext ℝ) : Ext ℝ := sum fun j => mul (.fin (x j)) (coef j)

/-- `Poisson.soft_threshold` (`poisson.py:325-344`). -/
noncomputable def soft (x : Ext ℝ) (t : ℝ) : Ext ℝ :=
  open Classical in
  let over : ℝ := if Above (abs x) t then 1 else 0
  mul (mul (sgn x) (sub (abs x) (.fin t))) (.fin over)

/-- `Poisson.adjusted_response` (`poisson.py:346-376`). -/
noncomputable def adjusted (lo hi : ℝ) (X : Fin n → Fin p → ℝ) (y : Fin n → ℝ) (coef : Fin p → Ext ℝ) (b : Ext ℝ) :
    (Fin n → Ext ℝ) × (Fin n → Ext ℝ) :=
  let eta := fun i => add b (dot (X i) coef)
  let w := fun i => exp lo hi (eta i)
  (w, fun i => sub (add (eta i) (div (.fin (y i)) (w i))) (.fin 1))

/-- `num_update` (`poisson.py:292-300`): the mask multiplies, so a NaN stays. -/
noncomputable def num (X : Fin n → Fin p → ℝ) (w z : Fin n → Ext ℝ) (b : Ext ℝ) (coef : Fin p → Ext ℝ) (j : Fin p) :
    Ext ℝ :=
  div (sum fun i => mul (w i) (mul (.fin (X i j)) (sub (z i)
    (add b (dot (X i) fun k => mul (coef k) (.fin (if k = j then 0 else 1))))))) (.fin n)

/-- `den_update` (`poisson.py:301`). -/
noncomputable def den (X : Fin n → Fin p → ℝ) (w : Fin n → Ext ℝ) (j : Fin p) : Ext ℝ :=
  div (sum fun i => mul (w i) (.fin (X i j ^ 2))) (.fin n)

/-- One coordinate update (`poisson.py:290-306`). -/
noncomputable def coord (pen : Pen) (X : Fin n → Fin p → ℝ) (w z : Fin n → Ext ℝ) (b : Ext ℝ) (coef : Fin p → Ext ℝ)
    (j : Fin p) : Fin p → Ext ℝ :=
  Function.update coef j
    (div (soft (num X w z b coef j) (pen.l1 * pen.alpha)) (add (den X w j) (.fin (pen.alpha * (1 - pen.l1)))))

/-- The intercept update (`poisson.py:281-287`). -/
noncomputable def intercept (pen : Pen) (X : Fin n → Fin p → ℝ) (w z : Fin n → Ext ℝ) (coef : Fin p → Ext ℝ) : Ext ℝ :=
  if pen.fi then div (sum fun i => mul (w i) (sub (z i) (dot (X i) coef))) (sum w) else .fin 0

/-- `Poisson._cd_sweep` (`poisson.py:252-308`). -/
noncomputable def sweep (pen : Pen) (X : Fin n → Fin p → ℝ) (w z : Fin n → Ext ℝ) (active : List (Fin p))
    (coef : Fin p → Ext ℝ) : (Fin p → Ext ℝ) × Ext ℝ :=
  let b := intercept pen X w z coef
  (active.foldl (coord pen X w z b) coef, b)

/-- `np.argwhere(coef != 0).ravel()` (`poisson.py:250`): NaN differs from zero. -/
noncomputable def nonzero (coef : Fin p → Ext ℝ) : List (Fin p) :=
  open Classical in (List.finRange p).filter fun j => decide (coef j ≠ .fin 0)

/-- The iterations of `Poisson._cd` (`poisson.py:231-250`); `np.max` of differences with a NaN is NaN. -/
noncomputable def loop (lo hi : ℝ) (pen : Pen) (tol : ℝ) (X : Fin n → Fin p → ℝ) (y : Fin n → ℝ) :
    Nat → List (Fin p) → (Fin p → Ext ℝ) → Ext ℝ → Except PyErr ((Fin p → Ext ℝ) × Ext ℝ × Bool)
  | 0, _, coef, b => .ok (coef, b, false)
  | fuel + 1, active, coef, b =>
    let wz := adjusted lo hi X y coef b
    let r := sweep pen X wz.1 wz.2 active coef
    if p = 0 then .error .valueError
    else
      open Classical in
      if ∀ j, Below (abs (sub (coef j) (r.1 j))) tol then .ok (r.1, r.2, true)
      else loop lo hi pen tol X y fuel (nonzero r.1) r.1 r.2

/-- `Poisson._cd` (`poisson.py:180-250`) from a cold start. -/
noncomputable def cdF (lo hi : ℝ) (pen : Pen) (tol : ℝ) (maxIter : Nat) (X : Fin n → Fin p → ℝ) (y : Fin n → ℝ) :
    Except PyErr ((Fin p → Ext ℝ) × Ext ℝ × Bool) :=
  loop lo hi pen tol X y maxIter (List.finRange p) (fun _ => .fin 0) (.fin 0)

end Verif.PoissonFloat
