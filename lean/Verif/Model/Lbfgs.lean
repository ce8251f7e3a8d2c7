import Mathlib.Data.List.FinRange
import Mathlib.Algebra.Notation.Defs
import Verif.Py.Err
/-!
Model of `/repo/liblbfgs/lbfgs.c` (with `arithmetic_ansi.h` and `lbfgs.h`).  The scalar type `F` is any
type with the operations of C's `double`; exact fields and numbers with NaN are instances.  Vectors
are functions of the index.  Not modelled here: allocation failure, the SSE code (not compiled by
`setup.py`, see `Model/Sse`).  Every line search and every run also records the points at which the objective was
evaluated (`trials`), newest first.
-/
namespace Verif.Lbfgs

/-! ### Codes -/

/-- Status codes used by `lbfgs.c` (`lbfgs.h:74-148`). -/
def SUCCESS : Int := 0
/-- `LBFGS_STOP` (`lbfgs.h:79`). -/
def STOP : Int := 1
/-- `LBFGS_ALREADY_MINIMIZED` (`lbfgs.h:81`). -/
def ALREADY_MINIMIZED : Int := 2
/-- `LBFGSERR_LOGICERROR` (`lbfgs.h:86`). -/
def ERR_LOGIC : Int := -1023
/-- `LBFGSERR_INVALID_N` (`lbfgs.h:92`). -/
def ERR_N : Int := -1020
/-- `LBFGSERR_INVALID_EPSILON` (`lbfgs.h:98`). -/
def ERR_EPSILON : Int := -1017
/-- `LBFGSERR_INVALID_TESTPERIOD` (`lbfgs.h:100`). -/
def ERR_TESTPERIOD : Int := -1016
/-- `LBFGSERR_INVALID_DELTA` (`lbfgs.h:102`). -/
def ERR_DELTA : Int := -1015
/-- `LBFGSERR_INVALID_LINESEARCH` (`lbfgs.h:104`). -/
def ERR_LINESEARCH : Int := -1014
/-- `LBFGSERR_INVALID_MINSTEP` (`lbfgs.h:106`). -/
def ERR_MINSTEP : Int := -1013
/-- `LBFGSERR_INVALID_MAXSTEP` (`lbfgs.h:108`). -/
def ERR_MAXSTEP : Int := -1012
/-- `LBFGSERR_INVALID_FTOL` (`lbfgs.h:110`). -/
def ERR_FTOL : Int := -1011
/-- `LBFGSERR_INVALID_WOLFE` (`lbfgs.h:112`). -/
def ERR_WOLFE : Int := -1010
/-- `LBFGSERR_INVALID_GTOL` (`lbfgs.h:114`). -/
def ERR_GTOL : Int := -1009
/-- `LBFGSERR_INVALID_XTOL` (`lbfgs.h:116`). -/
def ERR_XTOL : Int := -1008
/-- `LBFGSERR_INVALID_MAXLINESEARCH` (`lbfgs.h:118`). -/
def ERR_MAXLINESEARCH : Int := -1007
/-- `LBFGSERR_INVALID_ORTHANTWISE` (`lbfgs.h:120`). -/
def ERR_ORTHANTWISE : Int := -1006
/-- `LBFGSERR_INVALID_ORTHANTWISE_START` (`lbfgs.h:122`). -/
def ERR_ORTHANTWISE_START : Int := -1005
/-- `LBFGSERR_INVALID_ORTHANTWISE_END` (`lbfgs.h:124`). -/
def ERR_ORTHANTWISE_END : Int := -1004
/-- `LBFGSERR_OUTOFINTERVAL` (`lbfgs.h:126`). -/
def ERR_OUTOFINTERVAL : Int := -1003
/-- `LBFGSERR_INCORRECT_TMINMAX` (`lbfgs.h:129`). -/
def ERR_TMINMAX : Int := -1002
/-- `LBFGSERR_ROUNDING_ERROR` (`lbfgs.h:132`). -/
def ERR_ROUNDING : Int := -1001
/-- `LBFGSERR_MINIMUMSTEP` (`lbfgs.h:134`). -/
def ERR_MINIMUMSTEP : Int := -1000
/-- `LBFGSERR_MAXIMUMSTEP` (`lbfgs.h:136`). -/
def ERR_MAXIMUMSTEP : Int := -999
/-- `LBFGSERR_MAXIMUMLINESEARCH` (`lbfgs.h:138`). -/
def ERR_MAXIMUMLINESEARCH : Int := -998
/-- `LBFGSERR_MAXIMUMITERATION` (`lbfgs.h:140`). -/
def ERR_MAXIMUMITERATION : Int := -997
/-- `LBFGSERR_WIDTHTOOSMALL` (`lbfgs.h:143`). -/
def ERR_WIDTH : Int := -996
/-- `LBFGSERR_INVALIDPARAMETERS` (`lbfgs.h:145`). -/
def ERR_INVALIDPARAMETERS : Int := -995
/-- `LBFGSERR_INCREASEGRADIENT` (`lbfgs.h:147`). -/
def ERR_INCREASEGRADIENT : Int := -994

/-- Line search algorithms (`lbfgs.h:153-192`). -/
def LS_MORETHUENTE : Int := 0
/-- `LBFGS_LINESEARCH_BACKTRACKING_ARMIJO` (`lbfgs.h:167`). -/
def LS_ARMIJO : Int := 1
/-- `LBFGS_LINESEARCH_BACKTRACKING` and `..._WOLFE` (`lbfgs.h:169`, `180`). -/
def LS_WOLFE : Int := 2
/-- `LBFGS_LINESEARCH_BACKTRACKING_STRONG_WOLFE` (`lbfgs.h:191`). -/
def LS_STRONG : Int := 3

/-- Vectors: `double *` with its length (`lbfgs.c:245-247`). -/
abbrev Vec (n : Nat) (F : Type) := Fin n → F

/-- `lbfgs_parameter_t` (`lbfgs.h:198-330`). -/
structure Par (F : Type) where
  m : Int
  epsilon : F
  past : Int
  delta : F
  maxIterations : Int
  linesearch : Int
  maxLinesearch : Int
  minStep : F
  maxStep : F
  ftol : F
  wolfe : F
  gtol : F
  xtol : F
  c : F
  start : Int
  stop : Int

/-- The callbacks (`lbfgs.h:379-417`) and `sqrt`.  `eval` returns the value and the gradient at a point; `progress` may have
    a state `σ` (a Python closure). -/
structure Env (n : Nat) (σ F : Type) where
  sqrt : F → F
  eval : Vec n F → F × Vec n F
  progress : σ → Vec n F → Vec n F → F → F → F → F → Nat → Int → Int × σ

section
variable {n : Nat} {σ F : Type} [Zero F] [One F] [Add F] [Sub F] [Mul F] [Div F] [Neg F] [NatCast F]
  [LT F] [LE F] [DecidableLT F] [DecidableLE F]

/-! ### Vectors (`arithmetic_ansi.h`) -/

/-- A loop `s = 0; for (i = 0; i < n; ++i) s += f(i)` (`arithmetic_ansi.h:117-120`, `lbfgs.c:783-786`). -/
def vsum (f : Fin n → F) : F := (List.finRange n).foldl (fun s i => s + f i) 0

/-- `vecdot` (`arithmetic_ansi.h:114-121`). -/
def vecdot (x y : Vec n F) : F := vsum fun i => x i * y i

/-- `vecadd(y, x, c)` (`arithmetic_ansi.h:78-85`). -/
def vecadd (y x : Vec n F) (c : F) : Vec n F := fun i => y i + c * x i

/-- `vec2norm` (`arithmetic_ansi.h:123-127`). -/
def vec2norm (sqrt : F → F) (x : Vec n F) : F := sqrt (vecdot x x)

/-- `fabs` (`lbfgs.c:1308`). -/
def fabs (x : F) : F := if x < 0 then -x else x

/-- `a == b` for floats (`lbfgs.c:434`, `763`): false if one of them is NaN. -/
def feq (a b : F) : Prop := a ≤ b ∧ b ≤ a

instance (a b : F) : Decidable (feq a b) := inferInstanceAs (Decidable (_ ∧ _))

/-- `min2` (`lbfgs.c:93`). -/
def min2 (a b : F) : F := if a ≤ b then a else b

/-- `max2` (`lbfgs.c:94`). -/
def max2 (a b : F) : F := if b ≤ a then a else b

/-- A decimal constant `a / b` of the source (`lbfgs.c:662`, `753`, `992`, ...). -/
def const (a b : Nat) : F := (a : F) / (b : F)

/-! ### Orthant-wise functions -/

/-- `owlqn_x1norm` (`lbfgs.c:1298-1312`). -/
def x1norm (x : Vec n F) (start stop : Int) : F :=
  ((List.finRange n).filter fun i => decide (start ≤ (i.val : Int) ∧ (i.val : Int) < stop)).foldl
    (fun s i => s + fabs (x i)) 0

/-- `owlqn_pseudo_gradient` (`lbfgs.c:1314-1355`): the three loops write disjoint index ranges, or the
    last one writes the plain gradient again. -/
def pseudoGradient (x g : Vec n F) (c : F) (start stop : Int) : Vec n F := fun i =>
  if start ≤ (i.val : Int) ∧ (i.val : Int) < stop then
    if x i < 0 then g i - c
    else if 0 < x i then g i + c
    else if g i < -c then g i + c
    else if c < g i then g i - c
    else 0
  else g i

/-- `owlqn_project` (`lbfgs.c:1357-1371`). -/
def project (d sign : Vec n F) (start stop : Int) : Vec n F := fun i =>
  if start ≤ (i.val : Int) ∧ (i.val : Int) < stop then if d i * sign i ≤ 0 then 0 else d i else d i

/-! ### Line searches -/

/-- What a line search leaves behind: its return value (the number of evaluations or an error code), the
    point, value, gradient and step, and the points evaluated (newest first; not in the code)
    (`lbfgs.c:127-139`). -/
structure LsOut (n : Nat) (F : Type) where
  ret : Int
  x : Vec n F
  f : F
  g : Vec n F
  step : F
  trials : List (Vec n F)

/-- The loop of `line_search_backtracking` (`lbfgs.c:681-733`).  `count` evaluations were made, `rem`
    more are allowed (`rem = max_linesearch - count`). -/
def btLoop (env : Env n σ F) (p : Par F) (xp s : Vec n F) (finit dginit : F) :
    Nat → Nat → F → List (Vec n F) → LsOut n F
  | 0, _, stp, tr => ⟨ERR_LOGIC, xp, finit, s, stp, tr⟩
  | rem + 1, count, stp, tr =>
    let x := vecadd xp s stp
    let (f, g) := env.eval x
    let out := fun ret => (⟨ret, x, f, g, stp, x :: tr⟩ : LsOut n F)
    let again := fun width =>
      if stp < p.minStep then out ERR_MINIMUMSTEP
      else if p.maxStep < stp then out ERR_MAXIMUMSTEP
      else if p.maxLinesearch ≤ (count : Int) + 1 then out ERR_MAXIMUMLINESEARCH
      else btLoop env p xp s finit dginit rem (count + 1) (stp * width) (x :: tr)
    if finit + stp * (p.ftol * dginit) < f then again (const 1 2)
    else if p.linesearch = LS_ARMIJO then out (count + 1)
    else
      let dg := vecdot g s
      if dg < p.wolfe * dginit then again (const 21 10)
      else if p.linesearch = LS_WOLFE then out (count + 1)
      else if -p.wolfe * dginit < dg then again (const 1 2)
      else out (count + 1)

/-- `line_search_backtracking` (`lbfgs.c:645-734`): `x`, `f`, `g` are the current point, value and
    gradient, `s` the direction. -/
def backtracking (env : Env n σ F) (p : Par F) (x : Vec n F) (f : F) (g s : Vec n F) (stp : F) :
    LsOut n F :=
  if stp ≤ 0 then ⟨ERR_INVALIDPARAMETERS, x, f, g, stp, []⟩
  else
    let dginit := vecdot g s
    if 0 < dginit then ⟨ERR_INCREASEGRADIENT, x, f, g, stp, []⟩
    else btLoop env p x s f dginit p.maxLinesearch.toNat 0 stp []

/-- The loop of `line_search_backtracking_owlqn` (`lbfgs.c:766-807`). -/
def owlqnLoop (env : Env n σ F) (p : Par F) (xp pg wp s : Vec n F) (finit : F) :
    Nat → Nat → F → List (Vec n F) → LsOut n F
  | 0, _, stp, tr => ⟨ERR_LOGIC, xp, finit, s, stp, tr⟩
  | rem + 1, count, stp, tr =>
    let x := project (vecadd xp s stp) wp p.start p.stop
    let (f0, g) := env.eval x
    let f := f0 + x1norm x p.start p.stop * p.c
    let dgtest := vsum fun i => (x i - xp i) * pg i
    let out := fun ret => (⟨ret, x, f, g, stp, x :: tr⟩ : LsOut n F)
    if f ≤ finit + p.ftol * dgtest then out (count + 1)
    else if stp < p.minStep then out ERR_MINIMUMSTEP
    else if p.maxStep < stp then out ERR_MAXIMUMSTEP
    else if p.maxLinesearch ≤ (count : Int) + 1 then out ERR_MAXIMUMLINESEARCH
    else owlqnLoop env p xp pg wp s finit rem (count + 1) (stp * const 1 2) (x :: tr)

/-- `line_search_backtracking_owlqn` (`lbfgs.c:738-808`). -/
def backtrackingOwlqn (env : Env n σ F) (p : Par F) (x : Vec n F) (f : F) (g pg s : Vec n F) (stp : F) :
    LsOut n F :=
  if stp ≤ 0 then ⟨ERR_INVALIDPARAMETERS, x, f, g, stp, []⟩
  else
    let wp : Vec n F := fun i => if feq (x i) 0 then -pg i else x i
    owlqnLoop env p x pg wp s f p.maxLinesearch.toNat 0 stp []

/-- `CUBIC_MINIMIZER` (`lbfgs.c:1021-1035`). -/
def cubicMinimizer (sqrt : F → F) (u fu du v fv dv : F) : F :=
  let d := v - u
  let theta := (fu - fv) * const 3 1 / d + du + dv
  let s := max2 (max2 (fabs theta) (fabs du)) (fabs dv)
  let a := theta / s
  let gamma := s * sqrt (a * a - du / s * (dv / s))
  let gamma := if v < u then -gamma else gamma
  let p := gamma - du + theta
  let q := gamma - du + gamma + dv
  u + p / q * d

/-- `CUBIC_MINIMIZER2` (`lbfgs.c:1049-1069`). -/
def cubicMinimizer2 (sqrt : F → F) (u fu du v fv dv xmin xmax : F) : F :=
  let d := v - u
  let theta := (fu - fv) * const 3 1 / d + du + dv
  let s := max2 (max2 (fabs theta) (fabs du)) (fabs dv)
  let a := theta / s
  let gamma := s * sqrt (max2 0 (a * a - du / s * (dv / s)))
  let gamma := if u < v then -gamma else gamma
  let p := gamma - dv + theta
  let q := gamma - dv + gamma + du
  let r := p / q
  if r < 0 ∧ ¬ feq gamma 0 then v - r * d
  else if a < 0 then xmax else xmin

/-- `QUARD_MINIMIZER` (`lbfgs.c:1080-1082`). -/
def quardMinimizer (u fu du v fv : F) : F :=
  let a := v - u
  u + du / ((fu - fv) / a + du) / const 2 1 * a

/-- `QUARD_MINIMIZER2` (`lbfgs.c:1092-1094`). -/
def quardMinimizer2 (u du v dv : F) : F := v + dv / (dv - du) * (u - v)

/-- The interval of uncertainty of the More-Thuente search: the best step `x` and the other end `y` with
    values and derivatives, the trial step `t`, and whether a minimiser is bracketed
    (`lbfgs.c:826-834`, `1096-1119`). -/
structure Interval (F : Type) where
  x : F
  fx : F
  dx : F
  y : F
  fy : F
  dy : F
  t : F
  brackt : Bool

/-- `fsigndiff` (`arithmetic_ansi.h:34`): the derivatives at the trial and the best step have opposite
    signs. -/
def signDiff (dt dx : F) : Prop := dt * (dx / fabs dx) < 0

instance (dt dx : F) : Decidable (signDiff dt dx) := inferInstanceAs (Decidable (_ < _))

/-- The choice of the trial value (`lbfgs.c:1163-1241`): the value, `bound` and the new `brackt`. -/
def trialValue (sqrt : F → F) (v : Interval F) (ft dt tmin tmax : F) : F × Bool × Bool :=
  let mc := cubicMinimizer sqrt v.x v.fx v.dx v.t ft dt
  if v.fx < ft then
    let mq := quardMinimizer v.x v.fx v.dx v.t ft
    (if fabs (mc - v.x) < fabs (mq - v.x) then mc else mc + const 1 2 * (mq - mc), true, true)
  else if signDiff dt v.dx then
    let mq := quardMinimizer2 v.x v.dx v.t dt
    (if fabs (mq - v.t) < fabs (mc - v.t) then mc else mq, false, true)
  else if fabs dt < fabs v.dx then
    let mc := cubicMinimizer2 sqrt v.x v.fx v.dx v.t ft dt tmin tmax
    let mq := quardMinimizer2 v.x v.dx v.t dt
    (if v.brackt then if fabs (v.t - mc) < fabs (v.t - mq) then mc else mq
     else if fabs (v.t - mq) < fabs (v.t - mc) then mc else mq, true, v.brackt)
  else
    (if v.brackt then cubicMinimizer sqrt v.t ft dt v.y v.fy v.dy
     else if v.x < v.t then tmax else tmin, false, v.brackt)

/-- The new interval of uncertainty (`lbfgs.c:1243-1270`). -/
def newInterval (v : Interval F) (ft dt : F) : Interval F :=
  if v.fx < ft then { v with y := v.t, fy := ft, dy := dt }
  else if signDiff dt v.dx then
    { v with y := v.x, fy := v.fx, dy := v.dx, x := v.t, fx := ft, dx := dt }
  else { v with x := v.t, fx := ft, dx := dt }

/-- Clipping of the new trial value (`lbfgs.c:1272-1287`). -/
def clipTrial (w : Interval F) (sel : F × Bool × Bool) (tmin tmax : F) : F :=
  let newt := if tmax < sel.1 then tmax else sel.1
  let newt := if newt < tmin then tmin else newt
  let mq := w.x + const 66 100 * (w.y - w.x)
  if sel.2.2 = true ∧ sel.2.1 = true then
    if w.x < w.y then (if mq < newt then mq else newt) else (if newt < mq then mq else newt)
  else newt

/-- `update_trial_interval` (`lbfgs.c:1125-1292`): the return value and the new interval.  `ft` and `dt`
    are the value and derivative at the trial step. -/
def updateTrial (sqrt : F → F) (v : Interval F) (ft dt tmin tmax : F) : Int × Interval F :=
  if v.brackt = true ∧ (v.t ≤ min2 v.x v.y ∨ max2 v.x v.y ≤ v.t) then (ERR_OUTOFINTERVAL, v)
  else if v.brackt = true ∧ 0 ≤ v.dx * (v.t - v.x) then (ERR_INCREASEGRADIENT, v)
  else if v.brackt = true ∧ tmax < tmin then (ERR_TMINMAX, v)
  else
    let sel := trialValue sqrt v ft dt tmin tmax
    let w := newInterval v ft dt
    (0, { w with t := clipTrial w sel tmin tmax, brackt := sel.2.2 })

/-- The smallest and largest step of the interval (`lbfgs.c:875-881`). -/
def mtBounds (v : Interval F) : F × F :=
  if v.brackt then (min2 v.x v.y, max2 v.x v.y) else (v.x, v.t + const 4 1 * (v.t - v.x))

/-- The clipped trial step (`lbfgs.c:883-893`). -/
def mtClip (p : Par F) (v : Interval F) (count : Nat) (uinfo : Int) (stmin stmax : F) : F :=
  let stp := if v.t < p.minStep then p.minStep else v.t
  let stp := if p.maxStep < stp then p.maxStep else stp
  if (v.brackt = true ∧ ((stp ≤ stmin ∨ stmax ≤ stp) ∨ p.maxLinesearch ≤ (count : Int) + 1 ∨
      uinfo ≠ 0)) ∨ (v.brackt = true ∧ stmax - stmin ≤ p.xtol * stmax) then v.x else stp

/-- The update of the interval with the modified or the plain function (`lbfgs.c:950-986`). -/
def mtInterval (sqrt : F → F) (v : Interval F) (stage1 : Bool) (ftest1 dgtest f dg stmin stmax : F) :
    Int × Interval F :=
  if stage1 = true ∧ ftest1 < f ∧ f ≤ v.fx then
    let r := updateTrial sqrt
      { v with fx := v.fx - v.x * dgtest, dx := v.dx - dgtest,
               fy := v.fy - v.y * dgtest, dy := v.dy - dgtest }
      (f - v.t * dgtest) (dg - dgtest) stmin stmax
    (r.1, { r.2 with fx := r.2.fx + r.2.x * dgtest, dx := r.2.dx + dgtest,
                     fy := r.2.fy + r.2.y * dgtest, dy := r.2.dy + dgtest })
  else updateTrial sqrt v f dg stmin stmax

/-- Forcing a sufficient decrease of a bracketing interval (`lbfgs.c:992-994`). -/
def mtShrink (v : Interval F) (prevWidth : F) : Interval F :=
  if v.brackt = true ∧ const 66 100 * prevWidth ≤ fabs (v.y - v.x) then
    { v with t := v.x + const 1 2 * (v.y - v.x) } else v

/-- The loop of `line_search_morethuente` (`lbfgs.c:870-998`); `v` holds `stx`, ..., `stp`, `brackt`. -/
def mtLoop (env : Env n σ F) (p : Par F) (xp s : Vec n F) (finit dginit : F) :
    Nat → Nat → Interval F → Bool → F → F → Int → List (Vec n F) → LsOut n F
  | 0, _, v, _, _, _, _, tr => ⟨ERR_LOGIC, xp, finit, s, v.t, tr⟩
  | rem + 1, count, v, stage1, width, prevWidth, uinfo, tr =>
    let dgtest := p.ftol * dginit
    let (stmin, stmax) := mtBounds v
    let stp := mtClip p v count uinfo stmin stmax
    let x := vecadd xp s stp
    let (f, g) := env.eval x
    let dg := vecdot g s
    let ftest1 := finit + stp * dgtest
    let out := fun ret => (⟨ret, x, f, g, stp, x :: tr⟩ : LsOut n F)
    if v.brackt = true ∧ ((stp ≤ stmin ∨ stmax ≤ stp) ∨ uinfo ≠ 0) then out ERR_ROUNDING
    else if feq stp p.maxStep ∧ f ≤ ftest1 ∧ dg ≤ dgtest then out ERR_MAXIMUMSTEP
    else if feq stp p.minStep ∧ (ftest1 < f ∨ dgtest ≤ dg) then out ERR_MINIMUMSTEP
    else if v.brackt = true ∧ stmax - stmin ≤ p.xtol * stmax then out ERR_WIDTH
    else if p.maxLinesearch ≤ (count : Int) + 1 then out ERR_MAXIMUMLINESEARCH
    else if f ≤ ftest1 ∧ fabs dg ≤ p.gtol * (-dginit) then out (count + 1)
    else
      let stage1 := if stage1 = true ∧ f ≤ ftest1 ∧ min2 p.ftol p.gtol * dginit ≤ dg then false else stage1
      let r := mtInterval env.sqrt { v with t := stp } stage1 ftest1 dgtest f dg stmin stmax
      mtLoop env p xp s finit dginit rem (count + 1) (mtShrink r.2 prevWidth) stage1
        (if r.2.brackt then fabs (r.2.y - r.2.x) else width)
        (if r.2.brackt then width else prevWidth) r.1 (x :: tr)

/-- `line_search_morethuente` (`lbfgs.c:812-1001`). -/
def moreThuente (env : Env n σ F) (p : Par F) (x : Vec n F) (f : F) (g s : Vec n F) (stp : F) :
    LsOut n F :=
  if stp ≤ 0 then ⟨ERR_INVALIDPARAMETERS, x, f, g, stp, []⟩
  else
    let dginit := vecdot g s
    if 0 < dginit then ⟨ERR_INCREASEGRADIENT, x, f, g, stp, []⟩
    else
      let width := p.maxStep - p.minStep
      mtLoop env p x s f dginit p.maxLinesearch.toNat 0 ⟨0, f, dginit, 0, f, dginit, stp, false⟩ true
        width (const 2 1 * width) 0 []

/-! ### The main function -/

/-- Validation of the parameters (`lbfgs.c:286-364`): the error code, or nothing.  `m` is not looked
    at (with `m < 1` the C code divides by zero or writes outside its arrays; the model is only meant for
    `1 ≤ m`). -/
def check (n : Nat) (p : Par F) : Option Int :=
  if n = 0 then some ERR_N
  else if p.epsilon < 0 then some ERR_EPSILON
  else if p.past < 0 then some ERR_TESTPERIOD
  else if p.delta < 0 then some ERR_DELTA
  else if p.minStep < 0 then some ERR_MINSTEP
  else if p.maxStep < p.minStep then some ERR_MAXSTEP
  else if p.ftol < 0 then some ERR_FTOL
  else if (p.linesearch = LS_WOLFE ∨ p.linesearch = LS_STRONG) ∧ (p.wolfe ≤ p.ftol ∨ 1 ≤ p.wolfe) then
    some ERR_WOLFE
  else if p.gtol < 0 then some ERR_GTOL
  else if p.xtol < 0 then some ERR_XTOL
  else if p.maxLinesearch ≤ 0 then some ERR_MAXLINESEARCH
  else if p.c < 0 then some ERR_ORTHANTWISE
  else if p.start < 0 ∨ (n : Int) < p.start then some ERR_ORTHANTWISE_START
  else if (n : Int) < (if p.stop < 0 then (n : Int) else p.stop) then some ERR_ORTHANTWISE_END
  else if ¬ feq p.c 0 then
    if p.linesearch = LS_WOLFE then none else some ERR_LINESEARCH
  else if p.linesearch = LS_MORETHUENTE ∨ p.linesearch = LS_ARMIJO ∨ p.linesearch = LS_WOLFE ∨
      p.linesearch = LS_STRONG then none
  else some ERR_LINESEARCH

/-- `orthantwise_end` with its default filled in (`lbfgs.c:336-338`). -/
def fillEnd (n : Nat) (p : Par F) : Par F := if p.stop < 0 then { p with stop := n } else p

/-- A slot of the limited memory, `iteration_data_t` (`lbfgs.c:105-111`). -/
structure Slot (n : Nat) (F : Type) where
  alpha : F
  s : Vec n F
  y : Vec n F
  ys : F

/-- An empty slot (`lbfgs.c:393-404`). -/
def Slot.empty : Slot n F := ⟨0, fun _ => 0, fun _ => 0, 0⟩

/-- What the progress callback is given (`lbfgs.c:491-496`, `lbfgs.h:405-417`). -/
structure Report (n : Nat) (F : Type) where
  x : Vec n F
  g : Vec n F
  fx : F
  xnorm : F
  gnorm : F
  step : F
  k : Nat
  ls : Int

/-- The variables of `lbfgs` that live across iterations, and the state of the progress callback
    (`lbfgs.c:255-269`).  Not in the code: the points evaluated and the progress reports made so far,
    newest first. -/
structure St (n : Nat) (σ F : Type) where
  x : Vec n F
  fx : F
  g : Vec n F
  pg : Vec n F
  d : Vec n F
  step : F
  k : Nat
  stop : Nat
  lm : List (Slot n F)
  pf : List F
  cb : σ
  trials : List (Vec n F)
  reports : List (Report n F)

/-- The result of `lbfgs`: the code and the final content of `x` (`lbfgs.c:617-640`), with the points
    evaluated and the progress reports. -/
structure Out (n : Nat) (F : Type) where
  ret : Int
  x : Vec n F
  trials : List (Vec n F)
  reports : List (Report n F)

/-- The first loop of the recursion, newest correction first (`lbfgs.c:577-586`). -/
def loop1 (m : Nat) : Nat → Nat → Vec n F → List (Slot n F) → Nat × Vec n F × List (Slot n F)
  | 0, j, d, lm => (j, d, lm)
  | i + 1, j, d, lm =>
    let j := (j + m - 1) % m
    let it := lm.getD j Slot.empty
    let alpha := vecdot it.s d / it.ys
    loop1 m i j (vecadd d it.y (-alpha)) (lm.set j { it with alpha := alpha })

/-- The second loop, oldest correction first (`lbfgs.c:590-598`). -/
def loop2 (m : Nat) (lm : List (Slot n F)) : Nat → Nat → Vec n F → Vec n F
  | 0, _, d => d
  | i + 1, j, d =>
    let it := lm.getD j Slot.empty
    let beta := vecdot it.y d / it.ys
    loop2 m lm i ((j + 1) % m) (vecadd d it.s (it.alpha - beta))

/-- The search direction from the memory (`lbfgs.c:565-598`): `q` is the negative (pseudo-)gradient,
    `stop` the slot after the newest one, `bound` the number of corrections used, `gamma` the scaling
    `ys / yy`. -/
def direction (m stop bound : Nat) (gamma : F) (lm : List (Slot n F)) (q : Vec n F) :
    Vec n F × List (Slot n F) :=
  let (j, d, lm) := loop1 m bound stop q lm
  (loop2 m lm bound j (fun i => d i * gamma), lm)

/-- The constraint on the direction for orthant-wise updates (`lbfgs.c:603-609`). -/
def constrain (d pg : Vec n F) (start stop : Int) : Vec n F := fun i =>
  if start ≤ (i.val : Int) ∧ (i.val : Int) < stop then if 0 ≤ d i * pg i then 0 else d i else d i

/-- The line search chosen by the parameters (`lbfgs.c:342-364`, `466-474`). -/
def lineSearch (env : Env n σ F) (p : Par F) (s : St n σ F) : LsOut n F :=
  if feq p.c 0 then
    if p.linesearch = LS_MORETHUENTE then moreThuente env p s.x s.fx s.g s.d s.step
    else backtracking env p s.x s.fx s.g s.d s.step
  else backtrackingOwlqn env p s.x s.fx s.g s.pg s.d s.step

/-- The gradient or pseudo-gradient (`lbfgs.c:434-446`, `484-488`, `570-575`). -/
def effGrad (p : Par F) (g pg : Vec n F) : Vec n F := if feq p.c 0 then g else pg

/-- The convergence test `gnorm / max(1, xnorm) <= epsilon` (`lbfgs.c:441-451`, `503-508`). -/
def converged (p : Par F) (xnorm gnorm : F) : Prop :=
  gnorm / (if xnorm < 1 then 1 else xnorm) ≤ p.epsilon

instance (p : Par F) (a b : F) : Decidable (converged p a b) := inferInstanceAs (Decidable (_ ≤ _))

/-- Storing the correction pair in the slot `end` (`lbfgs.c:543-560`). -/
def storeLm (s : St n σ F) (r : LsOut n F) : List (Slot n F) :=
  let sv : Vec n F := fun i => r.x i - s.x i
  let yv : Vec n F := fun i => r.g i - s.g i
  s.lm.set s.stop { (s.lm.getD s.stop Slot.empty) with s := sv, y := yv, ys := vecdot yv sv }

/-- The scaling `ys / yy` (`lbfgs.c:558-560`, `588`). -/
def scaling (s : St n σ F) (r : LsOut n F) : F :=
  let sv : Vec n F := fun i => r.x i - s.x i
  let yv : Vec n F := fun i => r.g i - s.g i
  vecdot yv sv / vecdot yv yv

/-- The next direction before the orthant constraint, and the memory (`lbfgs.c:569-598`). -/
def newDirection (p : Par F) (s : St n σ F) (r : LsOut n F) (pg : Vec n F) : Vec n F × List (Slot n F) :=
  direction p.m.toNat ((s.stop + 1) % p.m.toNat) (if p.m ≤ (s.k : Int) then p.m.toNat else s.k)
    (scaling s r) (storeLm s r) (fun i => - effGrad p r.g pg i)

/-- Storing the correction and computing the next direction (`lbfgs.c:543-614`). -/
def update (p : Par F) (s : St n σ F) (r : LsOut n F) (pg : Vec n F) (pf : List F) (cb : σ)
    (reports : List (Report n F)) : St n σ F where
  x := r.x
  fx := r.f
  g := r.g
  pg := pg
  d := if feq p.c 0 then (newDirection p s r pg).1
    else constrain (newDirection p s r pg).1 pg p.start p.stop
  step := 1
  k := s.k + 1
  stop := (s.stop + 1) % p.m.toNat
  lm := (newDirection p s r pg).2
  pf := pf
  cb := cb
  trials := r.trials ++ s.trials
  reports := reports

/-- The pseudo-gradient after the line search (`lbfgs.c:470-474`); kept as it is without penalty. -/
def newPg (p : Par F) (s : St n σ F) (r : LsOut n F) : Vec n F :=
  if feq p.c 0 then s.pg else pseudoGradient r.x r.g p.c p.start p.stop

/-- The delta-based stopping test (`lbfgs.c:515-528`). -/
def deltaStop (p : Par F) (s : St n σ F) (f : F) : Prop :=
  0 < p.past ∧ p.past ≤ (s.k : Int) ∧
    fabs ((s.pf.getD (s.k % p.past.toNat) 0 - f) / f) < p.delta

instance (p : Par F) (s : St n σ F) (f : F) : Decidable (deltaStop p s f) :=
  inferInstanceAs (Decidable (_ ∧ _))

/-- The stored objective values (`lbfgs.c:530-531`). -/
def newPf (p : Par F) (s : St n σ F) (f : F) : List F :=
  if 0 < p.past then s.pf.set (s.k % p.past.toNat) f else s.pf

/-- One pass of the main loop (`lbfgs.c:460-615`): the next state or the result.  `p` has its
    `orthantwise_end` filled in. -/
def iterate (env : Env n σ F) (p : Par F) (s : St n σ F) : St n σ F ⊕ Out n F :=
  let r := lineSearch env p s
  let pg := newPg p s r
  let trials := r.trials ++ s.trials
  if r.ret < 0 then .inr ⟨r.ret, s.x, trials, s.reports⟩
  else
    let xnorm := vec2norm env.sqrt r.x
    let gnorm := vec2norm env.sqrt (effGrad p r.g pg)
    let pr := env.progress s.cb r.x r.g r.f xnorm gnorm r.step s.k r.ret
    let reports := ⟨r.x, r.g, r.f, xnorm, gnorm, r.step, s.k, r.ret⟩ :: s.reports
    if pr.1 ≠ 0 then .inr ⟨pr.1, r.x, trials, reports⟩
    else if converged p xnorm gnorm then .inr ⟨SUCCESS, r.x, trials, reports⟩
    else if deltaStop p s r.f then .inr ⟨STOP, r.x, trials, reports⟩
    else if p.maxIterations ≠ 0 ∧ p.maxIterations < (s.k : Int) + 1 then
      .inr ⟨ERR_MAXIMUMITERATION, r.x, trials, reports⟩
    else .inl (update p s r pg (newPf p s r.f) pr.2 reports)

/-- The state before the first iteration (`lbfgs.c:411-459`). -/
def start (env : Env n σ F) (p : Par F) (x0 : Vec n F) (cb : σ) : St n σ F :=
  let (f0, g) := env.eval x0
  let fx := if feq p.c 0 then f0 else f0 + x1norm x0 p.start p.stop * p.c
  let pg := if feq p.c 0 then (fun _ => 0) else pseudoGradient x0 g p.c p.start p.stop
  let d : Vec n F := fun i => - effGrad p g pg i
  { x := x0, fx := fx, g := g, pg := pg, d := d, step := 1 / vec2norm env.sqrt d, k := 1, stop := 0
    lm := List.replicate p.m.toNat Slot.empty
    pf := (List.replicate p.past.toNat (0 : F)).set 0 fx
    cb := cb, trials := [x0], reports := [] }

/-- The starting point already satisfies the convergence test (`lbfgs.c:438-451`). -/
def already (env : Env n σ F) (p : Par F) (s : St n σ F) : Prop :=
  converged p (vec2norm env.sqrt s.x) (vec2norm env.sqrt (effGrad p s.g s.pg))

instance (env : Env n σ F) (p : Par F) (s : St n σ F) : Decidable (already env p s) :=
  inferInstanceAs (Decidable (converged ..))

/-- The runs of the main loop that end (`lbfgs.c:460-615`). -/
inductive Run (env : Env n σ F) (p : Par F) : St n σ F → Out n F → Prop where
  | done {s : St n σ F} {o : Out n F} : iterate env p s = .inr o → Run env p s o
  | next {s s' : St n σ F} {o : Out n F} : iterate env p s = .inl s' → Run env p s' o → Run env p s o

/-- The states at the head of the main loop (`lbfgs.c:461`) of a call. -/
inductive Reach (env : Env n σ F) (p : Par F) (x0 : Vec n F) (cb : σ) : St n σ F → Prop where
  | start : check n p = none → ¬ Verif.Lbfgs.already env (fillEnd n p) (start env (fillEnd n p) x0 cb) →
      Reach env p x0 cb (start env (fillEnd n p) x0 cb)
  | next {s s' : St n σ F} : Reach env p x0 cb s → iterate env (fillEnd n p) s = .inl s' →
      Reach env p x0 cb s'

/-- `lbfgs` (`lbfgs.c:245-641`): the results it can end with.  (It is a function; a relation because the
    loop need not end.) -/
inductive Lbfgs (env : Env n σ F) (p : Par F) (x0 : Vec n F) (cb : σ) : Out n F → Prop where
  | rejected {code : Int} : check n p = some code → Lbfgs env p x0 cb ⟨code, x0, [], []⟩
  | already : check n p = none → already env (fillEnd n p) (start env (fillEnd n p) x0 cb) →
      Lbfgs env p x0 cb ⟨ALREADY_MINIMIZED, x0, [x0], []⟩
  | run {o : Out n F} : check n p = none →
      ¬ Verif.Lbfgs.already env (fillEnd n p) (start env (fillEnd n p) x0 cb) →
      Run env (fillEnd n p) (start env (fillEnd n p) x0 cb) o → Lbfgs env p x0 cb o

/-- The first `fuel` iterations of the loop (`lbfgs.c:460-615`). -/
def runFuel (env : Env n σ F) (p : Par F) : Nat → St n σ F → Option (Out n F)
  | 0, _ => none
  | fuel + 1, s =>
    match iterate env p s with
    | .inr o => some o
    | .inl s' => runFuel env p fuel s'

end

end Verif.Lbfgs
