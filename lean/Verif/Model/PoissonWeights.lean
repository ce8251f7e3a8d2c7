import Verif.Model.Poisson
/-!
The coordinate-descent Poisson solver of `/repo/src/pyuoi/linear_model/poisson.py` with sample weights.  Real
arithmetic.
-/
namespace Verif.Poisson
open Verif.Py

variable {n p : Nat}

/-- The weights and the working response of an iteration (`poisson.py:231-236`): the weights of
    `adjusted_response` times the sample weights. -/
noncomputable def weightedResponse (X : Fin n → Fin p → ℝ) (y sw : Fin n → ℝ) (coef : Fin p → ℝ)
    (b : ℝ) : (Fin n → ℝ) × (Fin n → ℝ) :=
  let wz := adjustedResponse X y coef b
  (fun i => wz.1 i * sw i, wz.2)

/-- The iterations of `Poisson._cd` with sample weights (`poisson.py:231-250`), as `cdLoop`. -/
noncomputable def cdLoopW (pen : Pen) (tol : ℝ) (X : Fin n → Fin p → ℝ) (y sw : Fin n → ℝ) :
    Nat → Active p → (Fin p → ℝ) → ℝ → Except PyErr ((Fin p → ℝ) × ℝ × Bool)
  | 0, _, coef, b => .ok (coef, b, false)
  | fuel + 1, active, coef, b =>
    let wz := weightedResponse X y sw coef b
    match sweepActive pen X wz.1 wz.2 active coef with
    | .error e => .error e
    | .ok (coef', b') =>
      if p = 0 then .error .valueError
      else
        open Classical in
        if ∀ j, |coef j - coef' j| < tol then .ok (coef', b', true)
        else cdLoopW pen tol X y sw fuel (.flat (nonzeros coef')) coef' b'

/-- `Poisson._cd` (`poisson.py:180-250`) without warm start; `sw` is `none` without sample weights, which then are
    ones (`poisson.py:204-205`). -/
noncomputable def cdW (pen : Pen) (tol : ℝ) (maxIter : Nat) (X : Fin n → Fin p → ℝ) (y : Fin n → ℝ)
    (sw : Option (Fin n → ℝ)) : Except PyErr ((Fin p → ℝ) × ℝ × Bool) :=
  cdLoopW pen tol X y (sw.getD fun _ => 1) maxIter (.flat (List.finRange p)) (fun _ => 0) 0

end Verif.Poisson
