import Verif.Model.Proportion
import Verif.Model.Cur
/-!
`UoI_CUR.fit` with a proportion of the bootstraps in double precision (`/repo/src/pyuoi/decomposition/CUR.py:63-141`,
`/repo/src/pyuoi/decomposition/utils.py:53-90`).
-/
namespace Verif.ProportionCur
open Verif.Py Verif.Cur Verif.Proportion
variable {K : Type} [Field K] [LinearOrder K]

/-- `UoI_CUR(stability_selection=p, ...).fit` (`CUR.py:51-61,93-95`): the proportion is rounded when it is read, its product with
    the number of bootstraps once more, and `int` truncates (`decomposition/utils.py:72-73`). -/
def fit {S : Type} {n d : Nat} (rnd : ℚ → ℚ) (argsort : List K → List Nat) (e : Sklearn S K n d) (nBoots : Nat) (maxK : Int)
    (fracOne : Bool) (p : ℚ) (rs : RandomState) (X : Fin n → Fin d → K) (ks : KsArg K) (cs : CsArg K) (w : World S)
    (draws : Nat → Nat → Nat → K) : Except PyErr (Fitted K) :=
  Cur.fit argsort e (doubles rnd) nBoots maxK fracOne (.float (.fin (rnd p))) rs X ks cs w draws

end Verif.ProportionCur
