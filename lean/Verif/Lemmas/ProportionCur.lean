import Verif.Model.ProportionCur
import Verif.Spec.ProportionCur
import Verif.Lemmas.Proportion
import Verif.Lemmas.Cur
/-! Lemmas on proportions of the bootstraps of `UoI_CUR`. -/
namespace Verif.ProportionCur
open Verif.Py Verif.Cur Verif.Proportion Verif.SplitSize Verif.Spec.SplitSize Verif.Thresholds

theorem threshold_eq (rnd : ℚ → ℚ) (p : ℚ) (n : Nat) :
    threshold (doubles rnd) (.float (.fin (rnd p))) n =
      if thr rnd p n ≤ n ∧ 1 ≤ thr rnd p n then .ok (thr rnd p n).toNat else .error .valueError := rfl

theorem threshold_ok {rnd : ℚ → ℚ} {p : ℚ} {n t : Nat} (h : threshold (doubles rnd) (.float (.fin (rnd p))) n = .ok t) :
    (t : Int) = thr rnd p n ∧ 1 ≤ t := by
  rw [threshold_eq] at h
  split_ifs at h with hc
  have := Except.ok.inj h
  omega

end Verif.ProportionCur
