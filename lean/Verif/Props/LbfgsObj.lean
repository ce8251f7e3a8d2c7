import Verif.Lemmas.LbfgsObj
import Verif.Props.LbfgsPy
/-!
Objects of the class `LBFGS` and the shapes of their arrays (C126).
-/
namespace Verif.Lbfgs
open Spec

section
variable {F : Type}

/-- C126.  An assignment either succeeds, and then the value can be read, or raises and changes nothing. -/
theorem C126_assign (cv : Conv F) (p : Par F) (a : Attr) (v : PyVal F) :
    ((setAttr cv p a v).1 = .ok () ↔ ∃ w, Reads cv a v w) ∧
    ∀ e, (setAttr cv p a v).1 = .error e → (setAttr cv p a v).2 = p := by
  rcases setAttr_spec cv p a v with ⟨h1, h2, _⟩ | ⟨⟨e, h1⟩, h2, h3⟩
  · exact ⟨⟨fun _ => ⟨_, h2⟩, fun _ => h1⟩, fun e he => (by rw [h1] at he; cases he)⟩
  · refine ⟨⟨fun h => (by rw [h1] at h; cases h), fun ⟨w, hw⟩ => absurd hw (h3 w)⟩, fun _ _ => h2⟩

/-- C126.  The claim of `C126_roundtrip_partial` is false of the line search: its value reads as a number,
    which is never accepted; and the two names of the default method cannot be told apart. -/
theorem C126_linesearch_negation (cv : Conv F) (p : Par F) :
    (setAttr cv p .linesearch (getAttr p .linesearch)).1 = .error .keyError ∧
    getAttr (setAttr cv p .linesearch (.str "default")).2 .linesearch =
      getAttr (setAttr cv p .linesearch (.str "morethuente")).2 .linesearch :=
  ⟨rfl, rfl⟩

end

section
variable {σ F : Type} [Zero F] [One F] [Add F] [Sub F] [Mul F] [Div F] [Neg F] [NatCast F]
  [LT F] [LE F] [DecidableLT F] [DecidableLE F]

/-- C126.  After any sequence of assignments and minimisations on one object, every attribute reads as the
    last value accepted for it; minimisations, refused values and other attributes have no influence. -/
theorem C126_settings {cv : Conv F} {sqrt : F → F} {p q : Par F} {l : List (Event σ F)}
    (h : Session cv sqrt p l q) (a : Attr) :
    LastAccepted cv (getAttr p) (assignments l) a (getAttr q a) := by
  induction h with
  | nil => exact .inr ⟨fun _ hv => (by cases hv), rfl⟩
  | set _ ih => exact lastAccepted_cons ih
  | minimize hm _ ih => rw [minimize_par hm] at ih; exact ih

/-- C126.  Objects that read alike minimise alike. -/
theorem C126_alike {p q : Par F} (h : ∀ a, getAttr p a = getAttr q a) (sqrt : F → F) (fs : Funs σ F)
    (x0 : Arr F) (cb : σ) (r : ResArr F) (calls : List (Arr F)) :
    Minimize sqrt fs x0 cb p r calls p ↔ Minimize sqrt fs x0 cb q r calls q := by
  have : p = q := by
    have h1 := h .m; have h2 := h .epsilon; have h3 := h .past; have h4 := h .delta
    have h5 := h .maxIterations; have h6 := h .linesearch; have h7 := h .maxLinesearch
    have h8 := h .minStep; have h9 := h .maxStep; have h10 := h .ftol; have h11 := h .gtol
    have h12 := h .xtol; have h13 := h .wolfe; have h14 := h .orthantwiseC
    have h15 := h .orthantwiseStart; have h16 := h .orthantwiseEnd
    simp only [getAttr, PyVal.int.injEq, PyVal.flt.injEq] at h1 h2 h3 h4 h5 h6 h7 h8 h9 h10 h11 h12 h13 h14 h15 h16
    cases p; cases q
    simp_all
  rw [this]

/-- C126 (partial: every attribute but one).  What was read from an attribute can be assigned again, which
    changes nothing. -/
theorem C126_roundtrip_partial {cv : Conv F} {sqrt : F → F} {q : Par F} {l : List (Event σ F)}
    (h : Session cv sqrt defparam l q) {a : Attr} (ha : a ≠ .linesearch) :
    setAttr cv q a (getAttr q a) = (.ok (), q) := by
  have hr : ∀ b ∈ intAttrs, ∀ z, getAttr q b = .int z → -2147483648 ≤ z ∧ z ≤ 2147483647 := by
    intro b hb z hz
    rw [← fits_iff]
    have hl := C126_settings h b
    rw [hz] at hl
    rcases hl with ⟨_, v, _, _, hv, _⟩ | ⟨_, hv⟩
    · cases hv with
      | int _ hf => exact hf
      | rounded _ _ hf => exact hf
      | search _ => exact absurd hb (by decide)
    · simp only [intAttrs, List.mem_cons, List.not_mem_nil, or_false] at hb
      rcases hb with rfl | rfl | rfl | rfl | rfl | rfl <;> (cases hv; unfold Fits defparam; constructor <;> norm_num)
  cases a
  case linesearch => exact absurd rfl ha
  all_goals
    first
    | rfl
    | (simp only [setAttr, getAttr, cInt, store]
       first
       | rw [if_pos (hr .m (by decide) _ rfl)]
       | rw [if_pos (hr .past (by decide) _ rfl)]
       | rw [if_pos (hr .maxIterations (by decide) _ rfl)]
       | rw [if_pos (hr .maxLinesearch (by decide) _ rfl)]
       | rw [if_pos (hr .orthantwiseStart (by decide) _ rfl)]
       | rw [if_pos (hr .orthantwiseEnd (by decide) _ rfl)])

omit [One F] [Add F] [Sub F] [Mul F] [Neg F] in
/-- C126.  `fmin_lbfgs` with integers of 32 bits sets the parameters that the model of its calls has. -/
theorem C126_fmin (cv : Conv F) (a : Args F)
    (h : ∀ z ∈ [a.par.m, a.par.past, a.par.maxIterations, a.par.maxLinesearch, a.par.start, a.par.stop],
      Fits z) : fminObj cv a = fminPar a := by
  simp only [fits_iff, List.mem_cons, List.not_mem_nil, or_false, forall_eq_or_imp, forall_eq] at h
  obtain ⟨h1, h2, h3, h4, h5, h6⟩ := h
  unfold fminObj fminPar
  by_cases hc : ¬ 0 ≤ a.par.c
  · rw [if_pos hc, if_pos hc]
  · rw [if_neg hc, if_neg hc]
    simp only [fminSteps, assignAll, setAttr, store, cInt, cDouble, if_pos h1, if_pos h2, if_pos h3,
      if_pos h4, if_pos h5, if_pos h6, searchCode]
    cases lineSearchAlgo.lookup (chooseSearch a).1 <;> rfl

omit [One F] [Add F] [Sub F] [Mul F] [Neg F] in
/-- C126.  An integer argument of `fmin_lbfgs` beyond 32 bits is not passed on truncated: the call raises
    before the objective is evaluated. -/
theorem C126_overflow (cv : Conv F) (a : Args F) (z : Int)
    (hz : z ∈ [a.par.m, a.par.past, a.par.maxIterations, a.par.maxLinesearch, a.par.start, a.par.stop])
    (h : ¬ Fits z) :
    fminObj cv a = .error .assertionError ∨ fminObj cv a = .error .overflowError ∨
    fminObj cv a = .error .keyError := by
  rw [fits_iff] at h
  unfold fminObj
  by_cases hc : ¬ 0 ≤ a.par.c
  · rw [if_pos hc]; exact .inl rfl
  · rw [if_neg hc]
    right
    simp only [fminSteps, assignAll, setAttr, store, cInt, cDouble]
    by_cases h5 : -2147483648 ≤ a.par.start ∧ a.par.start ≤ 2147483647
    swap
    · simp only [if_neg h5]; exact .inl trivial
    by_cases h6 : -2147483648 ≤ a.par.stop ∧ a.par.stop ≤ 2147483647
    swap
    · simp only [if_pos h5, if_neg h6]; exact .inl trivial
    by_cases h1 : -2147483648 ≤ a.par.m ∧ a.par.m ≤ 2147483647
    swap
    · simp only [if_pos h5, if_pos h6, if_neg h1]; exact .inl trivial
    by_cases h2 : -2147483648 ≤ a.par.past ∧ a.par.past ≤ 2147483647
    swap
    · simp only [if_pos h5, if_pos h6, if_pos h1, if_neg h2]; exact .inl trivial
    by_cases h3 : -2147483648 ≤ a.par.maxIterations ∧ a.par.maxIterations ≤ 2147483647
    swap
    · simp only [if_pos h5, if_pos h6, if_pos h1, if_pos h2, if_neg h3]; exact .inl trivial
    have h4 : ¬ (-2147483648 ≤ a.par.maxLinesearch ∧ a.par.maxLinesearch ≤ 2147483647) := by
      simp only [List.mem_cons, List.not_mem_nil, or_false] at hz
      rcases hz with rfl | rfl | rfl | rfl | rfl | rfl
      · exact absurd h1 h
      · exact absurd h2 h
      · exact absurd h3 h
      · exact h
      · exact absurd h5 h
      · exact absurd h6 h
    simp only [if_pos h5, if_pos h6, if_pos h1, if_pos h2, if_pos h3, if_neg h4, searchCode]
    cases lineSearchAlgo.lookup (chooseSearch a).1 with
    | none => exact .inr rfl
    | some _ => exact .inl rfl

/-- C126 (partial: not for scalars).  The returned array and the arrays on which the objective is called
    have the shape of `x0`; for a scalar they have one element and one dimension. -/
theorem C126_shape_partial {sqrt : F → F} {fs : Funs σ F} {x0 : Arr F} {cb : σ} {p q : Par F}
    {r : ResArr F} {calls : List (Arr F)} (h : Minimize sqrt fs x0 cb p r calls q) :
    (∀ x w, r = .returned x w → x.shape = if x0.shape = [] then [1] else x0.shape) ∧
    ∀ x ∈ calls, x.shape = if x0.shape = [] then [1] else x0.shape := by
  have hs : x0.atleast1d.shape = if x0.shape = [] then [1] else x0.shape := by
    rcases x0 with ⟨_ | ⟨d, s⟩, v⟩ <;> rfl
  cases h with
  | notCallable _ => exact ⟨fun _ _ h => (by cases h), fun _ h => (by cases h)⟩
  | badProgress _ _ _ => exact ⟨fun _ _ h => (by cases h), fun _ h => (by cases h)⟩
  | tooLarge _ _ _ => exact ⟨fun _ _ h => (by cases h), fun _ h => (by cases h)⟩
  | run _ _ _ _ =>
    rename_i o _ _ _ _
    refine ⟨fun x w hx => ?_, fun x hx => ?_⟩
    · cases hf : finish o with
      | returned y w' => rw [hf] at hx; cases hx; exact hs
      | raised e m => rw [hf] at hx; cases hx
    · obtain ⟨y, _, rfl⟩ := List.mem_map.1 hx
      exact hs

/-- C126.  An array of `2³¹` or more elements is refused, and only such an array is refused for its size. -/
theorem C126_size {sqrt : F → F} {fs : Funs σ F} {x0 : Arr F} {cb : σ} {p q : Par F}
    {r : ResArr F} {calls : List (Arr F)} (h : Minimize sqrt fs x0 cb p r calls q)
    (hf : fs.f.callable = true) (hp : ∀ pr, fs.progress = some pr → pr.callable = true) :
    (2 ^ 31 ≤ x0.shape.prod ∧ calls = [] ∧ r = .raised .lbfgsError
      (some ("Array of " ++ toString x0.shape.prod ++ " elements too large to handle"))) ∨
    (x0.shape.prod < 2 ^ 31 ∧ ∃ o, Lbfgs (fs.flat sqrt x0.atleast1d.shape).env p x0.atleast1d.data cb o ∧
      r = (finish o).arr _ ∧ calls = o.trials.map fun x => ⟨x0.atleast1d.shape, x⟩) := by
  have hs : x0.atleast1d.shape.prod = x0.shape.prod := by
    rcases x0 with ⟨_ | ⟨d, s⟩, v⟩ <;> rfl
  cases h with
  | notCallable h => rw [hf] at h; cases h
  | badProgress _ h1 h2 => rw [hp _ h1] at h2; cases h2
  | tooLarge _ _ hl =>
    rw [Ne, lowBits_iff, hs] at hl
    exact .inl ⟨by omega, rfl, by rw [hs]⟩
  | run _ _ hl ho =>
    rw [lowBits_iff, hs] at hl
    exact .inr ⟨hl, _, ho, rfl, rfl⟩

/-- C126.  Only the elements of `x0` matter: with an array of another shape and callables that do the same
    on that shape, the result has the same numbers. -/
theorem C126_reshape {sqrt : F → F} {fs gs : Funs σ F} {s t : List Nat} (hs : s ≠ []) (ht : t ≠ [])
    (h : s.prod = t.prod) (hr : Reshaped s t h fs gs) {x : Vec s.prod F} {cb : σ} {p q : Par F}
    {r : ResArr F} {calls : List (Arr F)} (hm : Minimize sqrt fs ⟨s, x⟩ cb p r calls q) :
    ∃ r' calls', Minimize sqrt gs ⟨t, fun i => x (Fin.cast h.symm i)⟩ cb p r' calls' q ∧
      SameNumbers r r' := by
  have hpc : (∀ pr, fs.progress = some pr → pr.callable = true) →
      ∀ pr, gs.progress = some pr → pr.callable = true := by
    intro hall pr hpr
    cases hfp : fs.progress with
    | none => rw [hr.without hfp] at hpr; cases hpr
    | some pr0 =>
      obtain ⟨pr', h1, h2, _⟩ := hr.progress pr0 hfp
      rw [h1] at hpr; cases hpr
      rw [h2]; exact hall _ hfp
  have hflat : gs.flat sqrt t = (fs.flat sqrt s).cast h := by
    unfold Funs.flat Callables.cast
    congr 1
    · funext y
      refine Prod.ext (hr.value fun i => y (Fin.cast h i)) ?_
      funext i
      exact hr.gradient (fun i => y (Fin.cast h i)) (Fin.cast h.symm i)
    · funext st y g fx xn gn step k ls
      cases hfp : fs.progress with
      | none => rw [hr.without hfp]
      | some pr0 =>
        obtain ⟨pr', h1, _, h3, h4⟩ := hr.progress pr0 hfp
        rw [h1]
        simp only [h3]
        split
        · exact h4 st (fun i => y (Fin.cast h i)) (fun i => g (Fin.cast h i)) fx xn gn step k ls
        · rfl
  have hat : ∀ (u : List Nat) (y : Vec u.prod F), u ≠ [] → Arr.atleast1d ⟨u, y⟩ = ⟨u, y⟩ := by
    intro u y hu
    cases u with
    | nil => exact absurd rfl hu
    | cons d l => rfl
  obtain ⟨d, s', rfl⟩ := List.exists_cons_of_ne_nil hs
  obtain ⟨e, t', rfl⟩ := List.exists_cons_of_ne_nil ht
  cases hm with
  | notCallable hf =>
    refine ⟨_, _, .notCallable (hr.callable.trans hf), ?_⟩
    rw [hr.type]; exact .raised
  | badProgress hf h1 h2 =>
    obtain ⟨pr', h3, h4, _⟩ := hr.progress _ h1
    refine ⟨_, _, .badProgress (hr.callable.trans hf) h3 (h4.trans h2), ?_⟩
    rw [hr.type]; exact .raised
  | tooLarge hf hp hl =>
    have hl' : lowBits (d :: s').prod ≠ (d :: s').prod := hl
    rw [h] at hl'
    refine ⟨_, _, .tooLarge (hr.callable.trans hf) (hpc hp) hl', ?_⟩
    have : SameNumbers (F := F) (.raised .lbfgsError
        (some ("Array of " ++ toString (d :: s').prod ++ " elements too large to handle")))
        (.raised .lbfgsError
        (some ("Array of " ++ toString (e :: t').prod ++ " elements too large to handle"))) := by
      rw [h]; exact .raised
    exact this
  | run hf hp hl ho =>
    rename_i o
    have hl' : lowBits (d :: s').prod = (d :: s').prod := hl
    rw [h] at hl'
    have ho' := lbfgs_cast h (show Lbfgs (fs.flat sqrt (d :: s')).env p x cb _ from ho)
    rw [← hflat] at ho'
    refine ⟨_, _, .run (hr.callable.trans hf) (hpc hp) hl' ho', ?_⟩
    show SameNumbers ((finish o).arr (d :: s')) (Res.arr (e :: t') (finish _))
    unfold finish
    simp only
    split_ifs
    · exact .returned (h := h)
    · cases message o.ret with
      | none => exact .raised
      | some m => exact .returned (h := h)
    · exact .raised
    · exact .raised
    · cases message o.ret with
      | none => exact .raised
      | some m => exact .raised

/-- C126.  A progress callable is documented to be called at each iteration.  One that counts as false (an
    object with `__len__` or `__bool__`) is accepted and never called: the call is one without it. -/
theorem C126_falsy_negation {sqrt : F → F} {fs : Funs σ F} {pr : PyObj _} (h : fs.progress = some pr)
    (hc : pr.callable = true) (ht : pr.truthy = false) (x0 : Arr F) (cb : σ) (p q : Par F) (r : ResArr F)
    (calls : List (Arr F)) :
    Minimize sqrt fs x0 cb p r calls q ↔ Minimize sqrt { fs with progress := none } x0 cb p r calls q := by
  have hflat : ∀ s, fs.flat sqrt s = ({ fs with progress := none } : Funs σ F).flat sqrt s := by
    intro s
    unfold Funs.flat
    congr 1
    funext st y g fx xn gn step k ls
    rw [h]
    simp only [ht]
    rfl
  have hall : ∀ pr, fs.progress = some pr → pr.callable = true := by
    intro pr' h'; rw [h] at h'; cases h'; exact hc
  constructor
  · intro hm
    cases hm with
    | notCallable hf => exact .notCallable (fs := { fs with progress := none }) hf
    | badProgress _ h1 h2 => rw [hall _ h1] at h2; cases h2
    | tooLarge hf _ hl =>
      exact .tooLarge (fs := { fs with progress := none }) hf (fun _ h => by cases h) hl
    | run hf _ hl ho =>
      rw [hflat] at ho
      exact .run (fs := { fs with progress := none }) hf (fun _ h => by cases h) hl ho
  · intro hm
    cases hm with
    | notCallable hf => exact .notCallable hf
    | badProgress _ h1 _ => cases h1
    | tooLarge hf _ hl => exact .tooLarge hf hall hl
    | run hf _ hl ho =>
      rw [← hflat] at ho
      exact .run hf hall hl ho

/-- C126.  The message about a progress argument that cannot be called names the type of the objective. -/
theorem C126_message_negation {sqrt : F → F} {fs : Funs σ F} {pr : PyObj _} (hf : fs.f.callable = true)
    (h : fs.progress = some pr) (hc : pr.callable = false) {x0 : Arr F} {cb : σ} {p q : Par F}
    {r : ResArr F} {calls : List (Arr F)} (hm : Minimize sqrt fs x0 cb p r calls q) :
    r = .raised .typeError (some ("progress must be callable, got " ++ fs.f.type)) := by
  cases hm with
  | notCallable h => rw [hf] at h; cases h
  | badProgress _ _ _ => rfl
  | tooLarge _ hp _ => rw [hp _ h] at hc; cases hc
  | run _ hp _ _ => rw [hp _ h] at hc; cases hc

end

/-! ### Examples -/

/-- Conversions: floats are refused where integers are declared. -/
def demoConv : Conv ℚ := ⟨fun _ => .error .typeError, fun z => .ok z⟩

/-- An objective that is zero everywhere. -/
def demoFuns : Funs Unit ℚ := ⟨⟨true, true, "<class 'function'>", fun _ => (.ok 0, fun _ => 0)⟩, none⟩

/-- An array of shape `(2, 1)`. -/
def demoArr : Arr ℚ := ⟨[2, 1], ![3, 4]⟩

theorem demoMinimize : Minimize (fun x => x) demoFuns demoArr () { defparam with m := 3 }
    (.returned demoArr none) [demoArr] { defparam with m := 3 } :=
  .run (fs := demoFuns) (x0 := demoArr) (o := ⟨2, ![3, 4], [![3, 4]], []⟩) rfl (fun _ h => by cases h)
    (by decide +kernel) (.already (by decide +kernel) (by decide +kernel))

/-- Assign, be refused, minimise, assign something else. -/
theorem demoSession : Session (σ := Unit) demoConv (fun x => x) defparam
    [.set .m (.int 3), .set .m (.int (2 ^ 40)), .minimize demoFuns demoArr (),
      .set .linesearch (.str "armijo"), .set .epsilon (.int 1)]
    { (defparam : Par ℚ) with m := 3, linesearch := 1, epsilon := 1 } :=
  .set (.set (.minimize demoMinimize (.set (.set .nil))))

example : LastAccepted demoConv (getAttr defparam)
    [(.m, .int 3), (.m, .int (2 ^ 40)), (.linesearch, .str "armijo"), (.epsilon, .int 1)] .m (.int 3) :=
  C126_settings demoSession .m

example : (setAttr demoConv defparam .m (.int 3)).1 = .ok () ∧
    (setAttr demoConv defparam .m (.flt 3)).1 = .error .typeError ∧
    (setAttr demoConv defparam .m (.int (2 ^ 31))).1 = .error .overflowError ∧
    (setAttr demoConv defparam .linesearch (.str "newton")).1 = .error .keyError :=
  ⟨(C126_assign demoConv defparam .m _).1.2 ⟨_, .int (by decide) (by decide)⟩, rfl, by decide +kernel, rfl⟩

example : setAttr demoConv { (defparam : Par ℚ) with m := 3, linesearch := 1, epsilon := 1 } .m (.int 3) =
    (.ok (), { (defparam : Par ℚ) with m := 3, linesearch := 1, epsilon := 1 }) :=
  C126_roundtrip_partial (a := .m) demoSession (by decide)

example : (setAttr demoConv { (defparam : Par ℚ) with linesearch := 1 } .linesearch (.int 1)).1 =
    .error .keyError :=
  (C126_linesearch_negation demoConv { (defparam : Par ℚ) with linesearch := 1 }).1

/-- Arguments of `fmin_lbfgs` with a penalty, so that the line search is changed. -/
def demoArgs : Args ℚ := ⟨{ defparam with c := 1, m := 10 }, "default"⟩

example : fminObj demoConv demoArgs = .ok { defparam with c := 1, m := 10, linesearch := 2 } :=
  (C126_fmin demoConv demoArgs (by decide +kernel)).trans rfl

example : fminObj demoConv { demoArgs with par := { demoArgs.par with m := 2 ^ 31 } } =
    .error .overflowError := rfl

example (a : Args ℚ) (h : a = { demoArgs with par := { demoArgs.par with m := 2 ^ 31 } }) :
    fminObj demoConv a = .error .assertionError ∨ fminObj demoConv a = .error .overflowError ∨
    fminObj demoConv a = .error .keyError :=
  C126_overflow demoConv a (2 ^ 31) (by subst h; decide) (by decide)

example : demoArr.shape = if demoArr.shape = [] then [1] else demoArr.shape :=
  (C126_shape_partial demoMinimize).1 _ _ rfl

example : (2 : Nat) * 1 < 2 ^ 31 := by
  rcases C126_size demoMinimize rfl (fun _ h => by cases h) with ⟨h, _⟩ | ⟨h, _⟩
  · exact absurd h (by decide)
  · exact h

/-- The same numbers in a row, and the objective on such arrays. -/
example : ∃ r calls, Minimize (fun x => x) demoFuns ⟨[1, 2], fun i => demoArr.data i⟩ ()
    { (defparam : Par ℚ) with m := 3 } r calls { defparam with m := 3 } ∧
    SameNumbers (.returned demoArr none) r :=
  C126_reshape (s := [2, 1]) (t := [1, 2]) (gs := demoFuns) (by decide) (by decide) rfl
    ⟨rfl, rfl, fun _ => rfl, fun _ _ => rfl, fun _ => rfl, fun _ h => by cases h⟩ demoMinimize

/-- A progress callable that would stop the minimisation at once, but has length zero. -/
def demoFalsy : Funs Unit ℚ :=
  ⟨demoFuns.f, some ⟨true, false, "<class 'Log'>", fun _ _ _ _ _ _ _ _ _ => (.ok (some 1), ())⟩⟩

example : Minimize (fun x => x) demoFalsy demoArr () { defparam with m := 3 } (.returned demoArr none)
    [demoArr] { defparam with m := 3 } :=
  (C126_falsy_negation (fs := demoFalsy) rfl rfl rfl _ _ _ _ _ _).2 demoMinimize

/-- A progress argument that is a number. -/
def demoBad : Funs Unit ℚ :=
  ⟨demoFuns.f, some ⟨false, true, "<class 'int'>", fun _ _ _ _ _ _ _ _ _ => (.ok none, ())⟩⟩

example {r : ResArr ℚ} {calls : List (Arr ℚ)} {p q : Par ℚ}
    (h : Minimize (fun x => x) demoBad demoArr () p r calls q) :
    r = .raised .typeError (some "progress must be callable, got <class 'function'>") :=
  (C126_message_negation (fs := demoBad) rfl rfl rfl h).trans (by rfl)

example : Minimize (fun x => x) demoBad demoArr () defparam
    (.raised .typeError (some ("progress must be callable, got " ++ "<class 'function'>"))) [] defparam :=
  .badProgress (fs := demoBad) rfl rfl rfl

example : Minimize (fun x => x) demoFuns demoArr () { (defparam : Par ℚ) with m := 3 }
    (.returned demoArr none) [demoArr] { defparam with m := 3 } :=
  (C126_alike (fun _ => rfl) _ _ _ _ _ _).1 demoMinimize

/-- C126.  One default of `fmin_lbfgs` is not the documented one. -/
theorem C126_defaults_negation : signatureDefaults.lookup "m" ≠ documentedDefaults.lookup "m" ∧
    ∀ name, name ≠ "m" → signatureDefaults.lookup name = documentedDefaults.lookup name := by
  refine ⟨by decide, fun name h => ?_⟩
  unfold signatureDefaults documentedDefaults
  have hb := beq_eq_false_iff_ne.2 h
  simp only [List.lookup, hb]

example : signatureDefaults.lookup "m" = some "10" ∧ documentedDefaults.lookup "m" = some "6" := by
  decide

/-- C126.  Two defaults of a new object are not those in the header of the library: `delta` is 1e-5 instead of 0,
    and `max_linesearch` is 40 instead of 20.  The others are.  Those without a documented default are the default
    line search, 1e-16 for `xtol`, and -1 for the end of the penalised variables. -/
theorem C126_fresh_negation :
    getAttr (defparam : Par ℚ) .delta = .flt (1 / 10 ^ 5) ∧ getAttr (defparam : Par ℚ) .maxLinesearch = .int 40 ∧
    (Attr.delta, PyVal.flt 0) ∈ headerDefaults ∧ (Attr.maxLinesearch, PyVal.int 20) ∈ headerDefaults ∧
    (∀ a v, (a, v) ∈ headerDefaults → a ≠ .delta → a ≠ .maxLinesearch → getAttr (defparam : Par ℚ) a = v) ∧
    (∀ a, (∃ v, (a, v) ∈ headerDefaults) ∨ a = .linesearch ∨ a = .xtol ∨ a = .orthantwiseEnd) ∧
    Reads demoConv .linesearch (.str "default") (getAttr defparam .linesearch) ∧
    getAttr (defparam : Par ℚ) .xtol = .flt (1 / 10 ^ 16) ∧ getAttr (defparam : Par ℚ) .orthantwiseEnd = .int (-1) := by
  refine ⟨by simp only [getAttr, defparam, const]; norm_num, rfl, by simp [headerDefaults], by simp [headerDefaults],
    fun a v h h1 h2 => ?_, fun a => ?_, .search (by decide), by simp only [getAttr, defparam, const]; norm_num, rfl⟩
  · simp only [headerDefaults, List.mem_cons, List.not_mem_nil, or_false, Prod.mk.injEq] at h
    rcases h with ⟨rfl, rfl⟩ | ⟨rfl, rfl⟩ | ⟨rfl, rfl⟩ | ⟨rfl, rfl⟩ | ⟨rfl, rfl⟩ | ⟨rfl, rfl⟩ | ⟨rfl, rfl⟩ |
      ⟨rfl, rfl⟩ | ⟨rfl, rfl⟩ | ⟨rfl, rfl⟩ | ⟨rfl, rfl⟩ | ⟨rfl, rfl⟩ | ⟨rfl, rfl⟩ <;>
    first
    | exact absurd rfl h1
    | exact absurd rfl h2
    | rfl
    | (simp only [getAttr, defparam, const]; norm_num)
  · cases a <;> simp [headerDefaults]

/-- Read from a new object. -/
example : getAttr (defparam : Par ℚ) .m = .int 6 ∧ getAttr (defparam : Par ℚ) .maxLinesearch ≠ .int 20 :=
  ⟨C126_fresh_negation.2.2.2.2.1 .m _ (by simp [headerDefaults]) (by decide) (by decide), by
    rw [C126_fresh_negation.2.1]; simp⟩

end Verif.Lbfgs
