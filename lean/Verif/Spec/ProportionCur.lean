import Mathlib.Algebra.Order.Field.Rat
import Verif.Spec.Cur
/-! Which columns a proportion of the bootstraps stands for. -/
namespace Verif.Spec.ProportionCur
open Verif.Py Verif.Spec.Cur
variable {K : Type} [Field K] [LinearOrder K]

/-- Number of bootstraps in which column `i` is drawn for one rank, from the singular vectors and draws of each bootstrap. -/
def timesDrawn {d : Nat} (nBoots : Nat) (V : Nat → Fin d → Nat → K) (k : Nat) (c : Ext K) (u : Nat → Nat → K) (i : Fin d) : Nat :=
  ((Finset.range nBoots).filter fun b => Drawn (V b) k c (u b) i).card

/-- For some rank, column `i` is drawn at least `m` times; `draws b ki` are the draws of bootstrap `b` for rank number `ki`. -/
def Reaches {d : Nat} (nBoots : Nat) (V : Nat → Fin d → Nat → K) (ks : List Int) (cs : List (Ext K)) (draws : Nat → Nat → Nat → K)
    (m : ℚ) (i : Fin d) : Prop :=
  ∃ (ki : Nat) (hk : ki < ks.length) (hc : ki < cs.length),
    m ≤ timesDrawn nBoots V ks[ki].toNat cs[ki] (fun b => draws b ki) i

end Verif.Spec.ProportionCur
