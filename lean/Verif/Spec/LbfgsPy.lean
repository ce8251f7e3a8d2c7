import Mathlib.Algebra.Order.Field.Basic
import Verif.Model.LbfgsPy
/-!
Specifications for the wrapper of the minimiser: documented ranges and names of the parameters.
-/
namespace Verif.Lbfgs.Spec

/-- The parameter belonging to an error code is out of its range. -/
inductive Violates {K : Type} [Field K] [LinearOrder K] (n : Nat) (p : Par K) : Int → Prop where
  | n : n = 0 → Violates n p (-1020)
  | epsilon : p.epsilon < 0 → Violates n p (-1017)
  | past : p.past < 0 → Violates n p (-1016)
  | delta : p.delta < 0 → Violates n p (-1015)
  | minStep : p.minStep < 0 → Violates n p (-1013)
  | maxStep : p.maxStep < p.minStep → Violates n p (-1012)
  | ftol : p.ftol < 0 → Violates n p (-1011)
  | wolfe : p.linesearch = 2 ∨ p.linesearch = 3 → ¬ (p.ftol < p.wolfe ∧ p.wolfe < 1) →
      Violates n p (-1010)
  | gtol : p.gtol < 0 → Violates n p (-1009)
  | xtol : p.xtol < 0 → Violates n p (-1008)
  | maxLinesearch : p.maxLinesearch < 1 → Violates n p (-1007)
  | c : p.c < 0 → Violates n p (-1006)
  | start : ¬ (0 ≤ p.start ∧ p.start ≤ n) → Violates n p (-1005)
  | stop : (n : Int) < p.stop → Violates n p (-1004)
  | searchPenalised : 0 < p.c → p.linesearch ≠ 2 → Violates n p (-1014)
  | searchPlain : p.c = 0 → ¬ (0 ≤ p.linesearch ∧ p.linesearch ≤ 3) → Violates n p (-1014)

/-- The argument of `fmin_lbfgs` that an error code is about. -/
def argument : List (Int × String) := [(-1017, "epsilon"), (-1016, "past"), (-1015, "delta"),
  (-1014, "linesearch"), (-1013, "min_step"), (-1012, "max_step"), (-1011, "ftol"), (-1010, "wolfe"),
  (-1009, "gtol"), (-1008, "xtol"), (-1007, "max_linesearch"), (-1006, "orthantwise_c"),
  (-1005, "orthantwise_start"), (-1004, "orthantwise_end")]

/-- The descriptions of the error codes in the header (`liblbfgs/lbfgs.h:83-147`), split where the text has
    `lbfgs_parameter_t::` before the name of a parameter. -/
def descriptions : List (String × List String) := [
  ("LBFGSERR_UNKNOWNERROR", ["Unknown error."]),
  ("LBFGSERR_LOGICERROR", ["Logic error."]),
  ("LBFGSERR_OUTOFMEMORY", ["Insufficient memory."]),
  ("LBFGSERR_CANCELED", ["The minimization process has been canceled."]),
  ("LBFGSERR_INVALID_N", ["Invalid number of variables specified."]),
  ("LBFGSERR_INVALID_N_SSE", ["Invalid number of variables (for SSE) specified."]),
  ("LBFGSERR_INVALID_X_SSE", ["The array x must be aligned to 16 (for SSE)."]),
  ("LBFGSERR_INVALID_EPSILON", ["Invalid parameter ", "epsilon specified."]),
  ("LBFGSERR_INVALID_TESTPERIOD", ["Invalid parameter ", "past specified."]),
  ("LBFGSERR_INVALID_DELTA", ["Invalid parameter ", "delta specified."]),
  ("LBFGSERR_INVALID_LINESEARCH", ["Invalid parameter ", "linesearch specified."]),
  ("LBFGSERR_INVALID_MINSTEP", ["Invalid parameter ", "max_step specified."]),
  ("LBFGSERR_INVALID_MAXSTEP", ["Invalid parameter ", "max_step specified."]),
  ("LBFGSERR_INVALID_FTOL", ["Invalid parameter ", "ftol specified."]),
  ("LBFGSERR_INVALID_WOLFE", ["Invalid parameter ", "wolfe specified."]),
  ("LBFGSERR_INVALID_GTOL", ["Invalid parameter ", "gtol specified."]),
  ("LBFGSERR_INVALID_XTOL", ["Invalid parameter ", "xtol specified."]),
  ("LBFGSERR_INVALID_MAXLINESEARCH", ["Invalid parameter ", "max_linesearch specified."]),
  ("LBFGSERR_INVALID_ORTHANTWISE", ["Invalid parameter ", "orthantwise_c specified."]),
  ("LBFGSERR_INVALID_ORTHANTWISE_START", ["Invalid parameter ", "orthantwise_start specified."]),
  ("LBFGSERR_INVALID_ORTHANTWISE_END", ["Invalid parameter ", "orthantwise_end specified."]),
  ("LBFGSERR_OUTOFINTERVAL", ["The line-search step went out of the interval of uncertainty."]),
  ("LBFGSERR_INCORRECT_TMINMAX", ["A logic error occurred; alternatively, the interval of uncertainty became too small."]),
  ("LBFGSERR_ROUNDING_ERROR", ["A rounding error occurred; alternatively, no line-search step satisfies the sufficient decrease and curvature conditions."]),
  ("LBFGSERR_MINIMUMSTEP", ["The line-search step became smaller than ", "min_step."]),
  ("LBFGSERR_MAXIMUMSTEP", ["The line-search step became larger than ", "max_step."]),
  ("LBFGSERR_MAXIMUMLINESEARCH", ["The line-search routine reaches the maximum number of evaluations."]),
  ("LBFGSERR_MAXIMUMITERATION", ["The algorithm routine reaches the maximum number of iterations."]),
  ("LBFGSERR_WIDTHTOOSMALL", ["Relative width of the interval of uncertainty is at most ", "xtol."]),
  ("LBFGSERR_INVALIDPARAMETERS", ["A logic error (negative line-search step) occurred."]),
  ("LBFGSERR_INCREASEGRADIENT", ["The current search direction increases the objective function value."])]

end Verif.Lbfgs.Spec
