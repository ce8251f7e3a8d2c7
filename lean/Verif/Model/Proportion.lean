import Verif.Model.Thresholds
import Verif.Model.Intersection
/-!
The supports for a proportion of the bootstraps in double precision: `stability_selection_to_threshold` followed by `intersection`
(`/repo/src/pyuoi/linear_model/base.py:116-118,312-322`).
-/
namespace Verif.Proportion
open Verif.Thresholds Verif.Intersection

/-- Products of doubles (`linear_model/utils.py:28,42,56`) that round by `rnd` and do not overflow, and `.astype('int')`
    (`utils.py:72`), which truncates; that of a special value is platform dependent and outside the bounds, here 0. -/
def doubles (rnd : ℚ → ℚ) : FloatSem where
  fl q := .fin (rnd q)
  cast x := match x with
    | .fin q => trunc q
    | _ => 0

/-- The supports of the selection coefficients for one proportion as written, which is rounded when it is read
    (`linear_model/base.py:116-118,312-322`). -/
def supports {K : Type} [Zero K] [DecidableEq K] (rnd : ℚ → ℚ) (A : Arr3 K) (p : ℚ) : Except PyErr BArr :=
  match stabilityToThreshold (doubles rnd) (.float (.fin (rnd p))) A.n0 with
  | .error e => .error e
  | .ok ts => intersection A (some ts)

/-- The same for a list of proportions (`linear_model/utils.py:38-42`). -/
def supportsList {K : Type} [Zero K] [DecidableEq K] (rnd : ℚ → ℚ) (A : Arr3 K) (ps : List ℚ) : Except PyErr BArr :=
  match stabilityToThreshold (doubles rnd) (.list (ps.map fun p => .float (.fin (rnd p)))) A.n0 with
  | .error e => .error e
  | .ok ts => intersection A (some ts)

end Verif.Proportion
