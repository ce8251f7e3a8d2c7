import Verif.Model.LbfgsPy
/-!
Model of the class `LBFGS` of `/repo/src/pyuoi/lbfgs/_lowlevel.pyx` as an object with state (its attributes
and its method `minimize` on arrays of any shape) and of how `fmin_lbfgs` uses it
(`/repo/src/pyuoi/lbfgs/__init__.py`).  The model `LbfgsPy` describes one call on flat vectors; here the
attributes are set one after the other, calls may follow each other on one object, and arrays have shapes.

Not modelled: `MemoryError` from `aligned_copy`; `*args` (part of the callables); the conversion of the
elements of `x0` to C doubles.
-/
namespace Verif.Lbfgs

/-! ### Attributes -/

/-- The attributes of an `LBFGS` object (`_lowlevel.pyx:239-349`). -/
inductive Attr where
  | m | epsilon | past | delta | maxIterations | linesearch | maxLinesearch | minStep | maxStep | ftol
  | gtol | xtol | wolfe | orthantwiseC | orthantwiseStart | orthantwiseEnd
  deriving DecidableEq, Repr

/-- The Python values assigned to attributes and read from them (`_lowlevel.pyx:239-349`). -/
inductive PyVal (F : Type) where
  | int (z : Int)
  | flt (x : F)
  | str (s : String)
  deriving DecidableEq, Repr

/-- Conversions of numbers done by Python and Cython (outside `/repo`), used by the setters with a
    declared type (`_lowlevel.pyx:243`, `250`): a float where a C `int` is declared (truncated or refused,
    depending on the version of Cython), an integer where a C `double` is declared. -/
structure Conv (F : Type) where
  toInt : F → Except PyErr Int
  ofInt : Int → Except PyErr F

/-- An argument declared `int val` (`_lowlevel.pyx:243`): a C `int` has 32 bits. -/
def cInt {F : Type} (cv : Conv F) : PyVal F → Except PyErr Int
  | .int z => if -2147483648 ≤ z ∧ z ≤ 2147483647 then .ok z else .error .overflowError
  | .flt x =>
    match cv.toInt x with
    | .ok z => if -2147483648 ≤ z ∧ z ≤ 2147483647 then .ok z else .error .overflowError
    | .error e => .error e
  | .str _ => .error .typeError

/-- An argument declared `double val` (`_lowlevel.pyx:250`). -/
def cDouble {F : Type} (cv : Conv F) : PyVal F → Except PyErr F
  | .int z => cv.ofInt z
  | .flt x => .ok x
  | .str _ => .error .typeError

/-- `_LINE_SEARCH_ALGO[algorithm]` (`_lowlevel.pyx:163-169`, `279`): a Python integer made from the C
    enumeration. -/
def searchCode {F : Type} : PyVal F → Except PyErr Int
  | .str s =>
    match lineSearchAlgo.lookup s with
    | some name => .ok (((cEnum 0 wrapperSearch).lookup name).getD 0)
    | none => .error .keyError
  | _ => .error .keyError

/-- A setter that converts its argument and stores it (`_lowlevel.pyx:243-244`): an exception in the
    conversion leaves the object as it is. -/
def store {F α : Type} (p : Par F) (v : Except PyErr α) (put : α → Par F) : Except PyErr Unit × Par F :=
  match v with
  | .ok x => (.ok (), put x)
  | .error e => (.error e, p)

/-- The setters (`_lowlevel.pyx:243-244`, `250-251`, `257-258`, `264-265`, `271-272`, `278-279`, `285-286`,
    `292-293`, `299-300`, `306-307`, `313-314`, `320-321`, `327-328`, `334-335`, `341-342`, `348-349`). -/
def setAttr {F : Type} (cv : Conv F) (p : Par F) (a : Attr) (v : PyVal F) : Except PyErr Unit × Par F :=
  match a with
  | .m => store p (cInt cv v) fun x => { p with m := x }
  | .epsilon => store p (cDouble cv v) fun x => { p with epsilon := x }
  | .past => store p (cInt cv v) fun x => { p with past := x }
  | .delta => store p (cDouble cv v) fun x => { p with delta := x }
  | .maxIterations => store p (cInt cv v) fun x => { p with maxIterations := x }
  | .linesearch => store p (searchCode v) fun x => { p with linesearch := x }
  | .maxLinesearch => store p (cInt cv v) fun x => { p with maxLinesearch := x }
  | .minStep => store p (cDouble cv v) fun x => { p with minStep := x }
  | .maxStep => store p (cDouble cv v) fun x => { p with maxStep := x }
  | .ftol => store p (cDouble cv v) fun x => { p with ftol := x }
  | .gtol => store p (cDouble cv v) fun x => { p with gtol := x }
  | .xtol => store p (cDouble cv v) fun x => { p with xtol := x }
  | .wolfe => store p (cDouble cv v) fun x => { p with wolfe := x }
  | .orthantwiseC => store p (cDouble cv v) fun x => { p with c := x }
  | .orthantwiseStart => store p (cInt cv v) fun x => { p with start := x }
  | .orthantwiseEnd => store p (cInt cv v) fun x => { p with stop := x }

/-- The getters (`_lowlevel.pyx:240-241`, `247-248`, `254-255`, `261-262`, `268-269`, `275-276`, `282-283`,
    `289-290`, `296-297`, `303-304`, `310-311`, `317-318`, `324-325`, `331-332`, `338-339`, `345-346`). -/
def getAttr {F : Type} (p : Par F) : Attr → PyVal F
  | .m => .int p.m
  | .epsilon => .flt p.epsilon
  | .past => .int p.past
  | .delta => .flt p.delta
  | .maxIterations => .int p.maxIterations
  | .linesearch => .int p.linesearch
  | .maxLinesearch => .int p.maxLinesearch
  | .minStep => .flt p.minStep
  | .maxStep => .flt p.maxStep
  | .ftol => .flt p.ftol
  | .gtol => .flt p.gtol
  | .xtol => .flt p.xtol
  | .wolfe => .flt p.wolfe
  | .orthantwiseC => .flt p.c
  | .orthantwiseStart => .int p.start
  | .orthantwiseEnd => .int p.stop

section
variable {σ F : Type} [Zero F] [One F] [Add F] [Sub F] [Mul F] [Div F] [Neg F] [NatCast F]
  [LT F] [LE F] [DecidableLT F] [DecidableLE F]

/-- `LBFGS()`: the parameters of the library, `lbfgs_parameter_init` and `_defparam`
    (`_lowlevel.pyx:234-235`, `lbfgs.c:113-118`, `240-243`). -/
def defparam : Par F where
  m := 6
  epsilon := const 1 100000
  past := 0
  delta := const 1 100000
  maxIterations := 0
  linesearch := 0
  maxLinesearch := 40
  minStep := const 1 100000000000000000000
  maxStep := const 100000000000000000000 1
  ftol := const 1 10000
  wolfe := const 9 10
  gtol := const 9 10
  xtol := const 1 10000000000000000
  c := 0
  start := 0
  stop := -1

/-- The assignments made by `fmin_lbfgs`, in the order of the code, the line search by its name
    (`lbfgs/__init__.py:187-203`). -/
def fminSteps (a : Args F) : List (Attr × PyVal F) := [
  (.orthantwiseC, .flt a.par.c), (.orthantwiseStart, .int a.par.start),
  (.orthantwiseEnd, .int a.par.stop), (.m, .int a.par.m), (.epsilon, .flt a.par.epsilon),
  (.past, .int a.par.past), (.delta, .flt a.par.delta), (.maxIterations, .int a.par.maxIterations),
  (.linesearch, .str (chooseSearch a).1), (.maxLinesearch, .int a.par.maxLinesearch),
  (.minStep, .flt a.par.minStep), (.maxStep, .flt a.par.maxStep), (.ftol, .flt a.par.ftol),
  (.wolfe, .flt a.par.wolfe), (.gtol, .flt a.par.gtol), (.xtol, .flt a.par.xtol)]

/-- Assignments one after the other, given up at the first exception (`lbfgs/__init__.py:187-203`). -/
def assignAll (cv : Conv F) : Par F → List (Attr × PyVal F) → Except PyErr (Par F)
  | p, [] => .ok p
  | p, (a, v) :: l =>
    match setAttr cv p a v with
    | (.ok _, p') => assignAll cv p' l
    | (.error e, _) => .error e

/-- The object on which `fmin_lbfgs` calls `minimize`, or the exception before that
    (`lbfgs/__init__.py:177-203`). -/
def fminObj (cv : Conv F) (a : Args F) : Except PyErr (Par F) :=
  if ¬ 0 ≤ a.par.c then .error .assertionError
  else assignAll cv defparam (fminSteps a)

/-! ### Arrays and callables -/

/-- A NumPy array of doubles: its shape and its elements in C order (`_lowlevel.pyx:118-121`). -/
structure Arr (F : Type) where
  shape : List Nat
  data : Vec shape.prod F

/-- `np.atleast_1d(x0)` (`_lowlevel.pyx:386`): a scalar becomes an array of one element. -/
def Arr.atleast1d (x : Arr F) : Arr F :=
  match x with
  | ⟨[], v⟩ => ⟨[1], fun _ => v ⟨0, Nat.one_pos⟩⟩
  | x => x

/-- A Python object given as a callable: what `callable(...)`, `bool(...)` and `type(...)` say about it,
    and the effect of calling it (`_lowlevel.pyx:136`, `381-384`). -/
structure PyObj (α : Type) where
  callable : Bool
  truthy : Bool
  type : String
  call : α

/-- The arguments `f` and `progress` of `minimize` (`_lowlevel.pyx:351`). -/
structure Funs (σ F : Type) where
  f : PyObj ((x : Arr F) → Except PyErr F × Vec x.shape.prod F)
  progress : Option (PyObj (σ → Arr F → Arr F → F → F → F → F → Nat → Int → Except PyErr (Option Int) × σ))

/-- The callables as the C code sees them through `call_eval` and `call_progress`, which turn the flat
    memory into arrays of the shape of `x0` (`_lowlevel.pyx:109-148`); an object without truth value
    counts as no progress callable (`_lowlevel.pyx:136`). -/
def Funs.flat (fs : Funs σ F) (sqrt : F → F) (s : List Nat) : Callables s.prod σ F where
  sqrt := sqrt
  f x := fs.f.call ⟨s, x⟩
  progress st x g fx xn gn step k ls :=
    match fs.progress with
    | none => (.ok none, st)
    | some pr => if pr.truthy then pr.call st ⟨s, x⟩ ⟨s, g⟩ fx xn gn step k ls else (.ok none, st)

/-- A C `int` holding the low 32 bits of a number (`n_i = n`, `_lowlevel.pyx:392-393`). -/
def lowBits (n : Nat) : Int := ((n : Int) + 2147483648) % 4294967296 - 2147483648

/-- What a call of `minimize` ends with (`_lowlevel.pyx:403-421`). -/
inductive ResArr (F : Type) where
  | returned (x : Arr F) (warning : Option String)
  | raised (e : PyErr) (msg : Option String)

/-- The result for arrays: `x_array.reshape(x0.shape)` (`_lowlevel.pyx:403-421`). -/
def Res.arr (s : List Nat) : Res s.prod F → ResArr F
  | .returned x w => .returned ⟨s, x⟩ w
  | .raised e msg => .raised e msg

/-- `LBFGS.minimize` (`_lowlevel.pyx:351-424`): the results it can end with on an object with the
    parameters `p`, the arrays on which the objective was called, and the parameters of the object
    afterwards.  The C function works on a copy of the parameters (`lbfgs.c:259`), in which alone a
    negative `orthantwise_end` is replaced (`lbfgs.c:336-338`; `fillEnd` in the model). -/
inductive Minimize (sqrt : F → F) (fs : Funs σ F) (x0 : Arr F) (cb : σ) (p : Par F) :
    ResArr F → List (Arr F) → Par F → Prop where
  | notCallable : fs.f.callable = false →
      Minimize sqrt fs x0 cb p (.raised .typeError (some ("f must be callable, got " ++ fs.f.type))) [] p
  | badProgress {pr : PyObj _} : fs.f.callable = true → fs.progress = some pr → pr.callable = false →
      Minimize sqrt fs x0 cb p
        (.raised .typeError (some ("progress must be callable, got " ++ fs.f.type))) [] p
  | tooLarge : fs.f.callable = true → (∀ pr, fs.progress = some pr → pr.callable = true) →
      lowBits x0.atleast1d.shape.prod ≠ x0.atleast1d.shape.prod →
      Minimize sqrt fs x0 cb p (.raised .lbfgsError
        (some ("Array of " ++ toString x0.atleast1d.shape.prod ++ " elements too large to handle"))) [] p
  | run {o : Out x0.atleast1d.shape.prod F} : fs.f.callable = true →
      (∀ pr, fs.progress = some pr → pr.callable = true) →
      lowBits x0.atleast1d.shape.prod = x0.atleast1d.shape.prod →
      Lbfgs (fs.flat sqrt x0.atleast1d.shape).env p x0.atleast1d.data cb o →
      Minimize sqrt fs x0 cb p ((finish o).arr x0.atleast1d.shape)
        (o.trials.map fun x => ⟨x0.atleast1d.shape, x⟩) p

/-- What a program can do with an object: assign an attribute (`_lowlevel.pyx:239-349`), or minimise a
    function (`_lowlevel.pyx:351`). -/
inductive Event (σ F : Type) where
  | set (a : Attr) (v : PyVal F)
  | minimize (fs : Funs σ F) (x0 : Arr F) (cb : σ)

/-- A sequence of actions on one object, exceptions being caught by the program
    (`_lowlevel.pyx:229-424`): the parameters before and after. -/
inductive Session (cv : Conv F) (sqrt : F → F) : Par F → List (Event σ F) → Par F → Prop where
  | nil {p : Par F} : Session cv sqrt p [] p
  | set {p q : Par F} {a : Attr} {v : PyVal F} {l : List (Event σ F)} :
      Session cv sqrt (setAttr cv p a v).2 l q → Session cv sqrt p (.set a v :: l) q
  | minimize {p p' q : Par F} {fs : Funs σ F} {x0 : Arr F} {cb : σ} {r : ResArr F} {calls : List (Arr F)}
      {l : List (Event σ F)} : Minimize sqrt fs x0 cb p r calls p' → Session cv sqrt p' l q →
      Session cv sqrt p (.minimize fs x0 cb :: l) q

end

/-- The default values in the signature of `fmin_lbfgs` (`lbfgs/__init__.py:11-15`). -/
def signatureDefaults : List (String × String) := [
  ("orthantwise_c", "0"), ("orthantwise_start", "0"), ("orthantwise_end", "-1"), ("m", "10"),
  ("epsilon", "1e-5"), ("past", "0"), ("delta", "0."), ("max_iterations", "0"),
  ("line_search", "default"), ("max_linesearch", "20"), ("min_step", "1e-20"), ("max_step", "1e+20"),
  ("ftol", "1e-4"), ("wolfe", "0.9"), ("gtol", "0.9"), ("xtol", "1e-30")]

end Verif.Lbfgs
