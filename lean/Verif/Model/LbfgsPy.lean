import Verif.Model.Lbfgs
/-!
Model of the Python wrapper of the minimiser: `/repo/src/pyuoi/lbfgs/_lowlevel.pyx` and
`/repo/src/pyuoi/lbfgs/__init__.py`.  Not modelled: `MemoryError` from `aligned_copy`, the conversion of
`x0` and of Python numbers to C types, the reshaping of arrays (vectors are flat).
-/
namespace Verif.Lbfgs

/-! ### Enumerations -/

/-- The values of the entries of a C (or Cython) `enum`: an explicit value, or one more than the entry
    before. -/
def cEnum : Int → List (String × Option Int) → List (String × Int)
  | _, [] => []
  | next, (name, v) :: l => (name, v.getD next) :: cEnum (v.getD next + 1) l

/-- The return values in the C header (`liblbfgs/lbfgs.h:74-148`). -/
def headerEnum : List (String × Option Int) := [
  ("LBFGS_ALLZERO", some (-2048)), ("LBFGS_SUCCESS", some 0), ("LBFGS_CONVERGENCE", some 0),
  ("LBFGS_STOP", none), ("LBFGS_ALREADY_MINIMIZED", none),
  ("LBFGSERR_UNKNOWNERROR", some (-1024)), ("LBFGSERR_LOGICERROR", none),
  ("LBFGSERR_OUTOFMEMORY", none), ("LBFGSERR_CANCELED", none), ("LBFGSERR_INVALID_N", none),
  ("LBFGSERR_INVALID_N_SSE", none), ("LBFGSERR_INVALID_X_SSE", none),
  ("LBFGSERR_INVALID_EPSILON", none), ("LBFGSERR_INVALID_TESTPERIOD", none),
  ("LBFGSERR_INVALID_DELTA", none), ("LBFGSERR_INVALID_LINESEARCH", none),
  ("LBFGSERR_INVALID_MINSTEP", none), ("LBFGSERR_INVALID_MAXSTEP", none),
  ("LBFGSERR_INVALID_FTOL", none), ("LBFGSERR_INVALID_WOLFE", none),
  ("LBFGSERR_INVALID_GTOL", none), ("LBFGSERR_INVALID_XTOL", none),
  ("LBFGSERR_INVALID_MAXLINESEARCH", none), ("LBFGSERR_INVALID_ORTHANTWISE", none),
  ("LBFGSERR_INVALID_ORTHANTWISE_START", none), ("LBFGSERR_INVALID_ORTHANTWISE_END", none),
  ("LBFGSERR_OUTOFINTERVAL", none), ("LBFGSERR_INCORRECT_TMINMAX", none),
  ("LBFGSERR_ROUNDING_ERROR", none), ("LBFGSERR_MINIMUMSTEP", none), ("LBFGSERR_MAXIMUMSTEP", none),
  ("LBFGSERR_MAXIMUMLINESEARCH", none), ("LBFGSERR_MAXIMUMITERATION", none),
  ("LBFGSERR_WIDTHTOOSMALL", none), ("LBFGSERR_INVALIDPARAMETERS", none),
  ("LBFGSERR_INCREASEGRADIENT", none)]

/-- The return values declared again in the wrapper (`_lowlevel.pyx:21-57`). -/
def wrapperEnum : List (String × Option Int) := [
  ("LBFGS_ALLZERO", some (-2048)), ("LBFGS_SUCCESS", some 0), ("LBFGS_CONVERGENCE", some 0),
  ("LBFGS_STOP", none), ("LBFGS_ALREADY_MINIMIZED", none),
  ("LBFGSERR_UNKNOWNERROR", some (-1024)), ("LBFGSERR_LOGICERROR", none),
  ("LBFGSERR_OUTOFMEMORY", none), ("LBFGSERR_CANCELED", none), ("LBFGSERR_INVALID_N", none),
  ("LBFGSERR_INVALID_N_SSE", none), ("LBFGSERR_INVALID_X_SSE", none),
  ("LBFGSERR_INVALID_EPSILON", none), ("LBFGSERR_INVALID_TESTPERIOD", none),
  ("LBFGSERR_INVALID_DELTA", none), ("LBFGSERR_INVALID_LINESEARCH", none),
  ("LBFGSERR_INVALID_MINSTEP", none), ("LBFGSERR_INVALID_MAXSTEP", none),
  ("LBFGSERR_INVALID_FTOL", none), ("LBFGSERR_INVALID_WOLFE", none),
  ("LBFGSERR_INVALID_GTOL", none), ("LBFGSERR_INVALID_XTOL", none),
  ("LBFGSERR_INVALID_MAXLINESEARCH", none), ("LBFGSERR_INVALID_ORTHANTWISE", none),
  ("LBFGSERR_INVALID_ORTHANTWISE_START", none), ("LBFGSERR_INVALID_ORTHANTWISE_END", none),
  ("LBFGSERR_OUTOFINTERVAL", none), ("LBFGSERR_INCORRECT_TMINMAX", none),
  ("LBFGSERR_ROUNDING_ERROR", none), ("LBFGSERR_MINIMUMSTEP", none), ("LBFGSERR_MAXIMUMSTEP", none),
  ("LBFGSERR_MAXIMUMLINESEARCH", none), ("LBFGSERR_MAXIMUMITERATION", none),
  ("LBFGSERR_WIDTHTOOSMALL", none), ("LBFGSERR_INVALIDPARAMETERS", none),
  ("LBFGSERR_INCREASEGRADIENT", none)]

/-- The line search algorithms in the C header (`liblbfgs/lbfgs.h:153-192`). -/
def headerSearch : List (String × Option Int) := [
  ("LBFGS_LINESEARCH_DEFAULT", some 0), ("LBFGS_LINESEARCH_MORETHUENTE", some 0),
  ("LBFGS_LINESEARCH_BACKTRACKING_ARMIJO", some 1), ("LBFGS_LINESEARCH_BACKTRACKING", some 2),
  ("LBFGS_LINESEARCH_BACKTRACKING_WOLFE", some 2),
  ("LBFGS_LINESEARCH_BACKTRACKING_STRONG_WOLFE", some 3)]

/-- The line search algorithms in the wrapper (`_lowlevel.pyx:13-19`). -/
def wrapperSearch : List (String × Option Int) := [
  ("LBFGS_LINESEARCH_DEFAULT", some 0), ("LBFGS_LINESEARCH_MORETHUENTE", some 0),
  ("LBFGS_LINESEARCH_BACKTRACKING_ARMIJO", some 1), ("LBFGS_LINESEARCH_BACKTRACKING", some 2),
  ("LBFGS_LINESEARCH_BACKTRACKING_WOLFE", some 2),
  ("LBFGS_LINESEARCH_BACKTRACKING_STRONG_WOLFE", some 3)]

/-- The value of a name in the wrapper (`_lowlevel.pyx:21-57`). -/
def wcode (name : String) : Int := ((cEnum 0 wrapperEnum).lookup name).getD 0

/-- `_LINE_SEARCH_ALGO` (`_lowlevel.pyx:163-169`). -/
def lineSearchAlgo : List (String × String) := [
  ("default", "LBFGS_LINESEARCH_DEFAULT"), ("morethuente", "LBFGS_LINESEARCH_MORETHUENTE"),
  ("armijo", "LBFGS_LINESEARCH_BACKTRACKING_ARMIJO"), ("wolfe", "LBFGS_LINESEARCH_BACKTRACKING_WOLFE"),
  ("strongwolfe", "LBFGS_LINESEARCH_BACKTRACKING_STRONG_WOLFE")]

/-- `_ERROR_MESSAGES` (`_lowlevel.pyx:172-218`). -/
def errorMessages : List (String × String) := [
  ("LBFGSERR_UNKNOWNERROR", "Unknown error."), ("LBFGSERR_LOGICERROR", "Logic error."),
  ("LBFGSERR_OUTOFMEMORY", "Insufficient memory."),
  ("LBFGSERR_CANCELED", "The minimization process has been canceled."),
  ("LBFGSERR_INVALID_N", "Invalid number of variables specified."),
  ("LBFGSERR_INVALID_N_SSE", "Invalid number of variables (for SSE) specified."),
  ("LBFGSERR_INVALID_X_SSE", "The array x must be aligned to 16 (for SSE)."),
  ("LBFGSERR_INVALID_EPSILON", "Invalid parameter epsilon specified."),
  ("LBFGSERR_INVALID_TESTPERIOD", "Invalid parameter past specified."),
  ("LBFGSERR_INVALID_DELTA", "Invalid parameter delta specified."),
  ("LBFGSERR_INVALID_LINESEARCH", "Invalid parameter linesearch specified."),
  ("LBFGSERR_INVALID_MINSTEP", "Invalid parameter max_step specified."),
  ("LBFGSERR_INVALID_MAXSTEP", "Invalid parameter max_step specified."),
  ("LBFGSERR_INVALID_FTOL", "Invalid parameter ftol specified."),
  ("LBFGSERR_INVALID_WOLFE", "Invalid parameter wolfe specified."),
  ("LBFGSERR_INVALID_GTOL", "Invalid parameter gtol specified."),
  ("LBFGSERR_INVALID_XTOL", "Invalid parameter xtol specified."),
  ("LBFGSERR_INVALID_MAXLINESEARCH", "Invalid parameter max_linesearch specified."),
  ("LBFGSERR_INVALID_ORTHANTWISE", "Invalid parameter orthantwise_c specified."),
  ("LBFGSERR_INVALID_ORTHANTWISE_START", "Invalid parameter orthantwise_start specified."),
  ("LBFGSERR_INVALID_ORTHANTWISE_END", "Invalid parameter orthantwise_end specified."),
  ("LBFGSERR_OUTOFINTERVAL", "The line-search step went out of the interval of uncertainty."),
  ("LBFGSERR_INCORRECT_TMINMAX",
    "A logic error occurred; alternatively, the interval of uncertainty became too small."),
  ("LBFGSERR_ROUNDING_ERROR", "A rounding error occurred; alternatively, no line-search step satisfies \
    the sufficient decrease and curvature conditions."),
  ("LBFGSERR_MINIMUMSTEP", "The line-search step became smaller than min_step."),
  ("LBFGSERR_MAXIMUMSTEP", "The line-search step became larger than max_step."),
  ("LBFGSERR_MAXIMUMLINESEARCH", "The line-search routine reaches the maximum number of evaluations."),
  ("LBFGSERR_MAXIMUMITERATION", "The algorithm routine reaches the maximum number of iterations."),
  ("LBFGSERR_WIDTHTOOSMALL", "Relative width of the interval of uncertainty is at most xtol."),
  ("LBFGSERR_INVALIDPARAMETERS", "A logic error (negative line-search step) occurred."),
  ("LBFGSERR_INCREASEGRADIENT",
    "The current search direction increases the objective function value.")]

/-- `_ERROR_MESSAGES[r]` (`_lowlevel.pyx:411`, `421`): nothing if there is no such key. -/
def message (r : Int) : Option String := (errorMessages.map fun e => (wcode e.1, e.2)).lookup r

/-! ### `minimize` -/

/-- What a call ends with: an array and perhaps a warning, or an exception and its message. -/
inductive Res (n : Nat) (F : Type) where
  | returned (x : Vec n F) (warning : Option String)
  | raised (e : PyErr) (msg : Option String)

/-- The end of `LBFGS.minimize` (`_lowlevel.pyx:403-421`). -/
def finish {n : Nat} {F : Type} (o : Out n F) : Res n F :=
  if o.ret = wcode "LBFGS_SUCCESS" ∨ o.ret = wcode "LBFGS_ALREADY_MINIMIZED" then .returned o.x none
  else if o.ret = wcode "LBFGSERR_ROUNDING_ERROR" ∨ o.ret = wcode "LBFGSERR_MAXIMUMLINESEARCH" ∨
      o.ret = wcode "LBFGSERR_MAXIMUMITERATION" then
    (message o.ret).elim (.raised .keyError none) fun m => .returned o.x (some m)
  else if o.ret = wcode "LBFGSERR_OUTOFMEMORY" then .raised .memoryError none
  else if o.ret = wcode "LBFGS_ALLZERO" then .raised .allZeroLbfgs none
  else (message o.ret).elim (.raised .keyError none) fun m => .raised .lbfgsError (some m)

/-- The Python callables.  The objective returns a value or raises, and leaves something in the gradient
    array (simplification: that content is a function of the point; the code passes the array with its
    old content).  The progress callable returns `None`, an integer, or raises. -/
structure Callables (n : Nat) (σ F : Type) where
  sqrt : F → F
  f : Vec n F → Except PyErr F × Vec n F
  progress : σ → Vec n F → Vec n F → F → F → F → F → Nat → Int → Except PyErr (Option Int) × σ

section
variable {n : Nat} {σ F : Type} [Zero F] [One F] [Add F] [Sub F] [Mul F] [Div F] [Neg F] [NatCast F]
  [LT F] [LE F] [DecidableLT F] [DecidableLE F]

/-- `call_eval` and `call_progress` (`_lowlevel.pyx:109-148`): both are `noexcept`, so an exception is
    printed and the value is zero. -/
def Callables.env (c : Callables n σ F) : Env n σ F where
  sqrt := c.sqrt
  eval x := (match (c.f x).1 with | .ok v => v | .error _ => 0, (c.f x).2)
  progress s x g fx xn gn step k ls :=
    let r := c.progress s x g fx xn gn step k ls
    (match r.1 with | .ok (some v) => v | .ok none => 0 | .error _ => 0, r.2)

/-- The arguments of `fmin_lbfgs` (`lbfgs/__init__.py:11-15`); those of type `Par` are passed on, with the
    line search given by name. -/
structure Args (F : Type) where
  par : Par F
  lineSearch : String

/-- The adjustment of the line search for penalised problems (`lbfgs/__init__.py:180-185`): the name and
    whether there is a warning. -/
def chooseSearch (a : Args F) : String × Bool :=
  if 0 < a.par.c ∧ a.lineSearch ∉ ["wolfe", "default"] then ("wolfe", true)
  else if 0 < a.par.c ∧ a.lineSearch = "default" then ("wolfe", false)
  else (a.lineSearch, false)

/-- The parameters passed to the C function (`lbfgs/__init__.py:177-203`, `_lowlevel.pyx:278-279`). -/
def fminPar (a : Args F) : Except PyErr (Par F) :=
  if ¬ 0 ≤ a.par.c then .error .assertionError
  else match lineSearchAlgo.lookup (chooseSearch a).1 with
    | none => .error .keyError
    | some name => .ok { a.par with linesearch := ((cEnum 0 wrapperSearch).lookup name).getD 0 }

/-- `fmin_lbfgs` (`lbfgs/__init__.py:11-205`): the results it can end with, and the points at which the
    objective was evaluated. -/
inductive Fmin (c : Callables n σ F) (a : Args F) (x0 : Vec n F) (cb : σ) :
    Res n F → List (Vec n F) → Prop where
  | bad {e : PyErr} : fminPar a = .error e → Fmin c a x0 cb (.raised e none) []
  | run {p : Par F} {o : Out n F} : fminPar a = .ok p → Lbfgs c.env p x0 cb o →
      Fmin c a x0 cb (finish o) o.trials

end

end Verif.Lbfgs
