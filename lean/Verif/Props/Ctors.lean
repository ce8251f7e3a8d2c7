import Mathlib.Tactic.FinCases
import Verif.Lemmas.Ctors
/-!
Constructor arguments of the UoI estimators, scikit-learn's parameter protocol, and the wrapper of the
pycasso solver (C99 to C102).
-/
namespace Verif.Ctors
open Verif.Scores

/-- The value of a parameter: what was passed, otherwise the documented default. -/
def passed (c : Cls) (g : Kw) (k : String) : Val :=
  match g.lookup k with
  | some v => v
  | none => ((defaults c).lookup k).getD .none

theorem passed_eq (c : Cls) (g : Kw) : passed c g = arg g (defaults c) := by
  funext k
  unfold passed arg
  cases g.lookup k <;> rfl

/-- The parameters that can be read back. -/
def readable : Cls → List String
  | .lasso => ["n_boots_sel", "n_boots_est", "selection_frac", "estimation_frac", "n_lambdas",
      "stability_selection", "estimation_score", "eps", "fit_intercept", "standardize", "max_iter", "tol",
      "comm", "solver"]
  | .elasticNet => ["n_boots_sel", "n_boots_est", "selection_frac", "estimation_frac", "n_lambdas",
      "alphas", "stability_selection", "estimation_score", "warm_start", "eps", "fit_intercept",
      "standardize", "max_iter", "tol", "comm"]
  | .logistic => ["n_boots_sel", "n_boots_est", "selection_frac", "estimation_frac", "n_C",
      "stability_selection", "estimation_score", "multi_class", "shared_support", "eps", "fit_intercept",
      "standardize", "tol", "comm"]
  | .poisson => ["n_boots_sel", "n_boots_est", "n_lambdas", "alphas", "selection_frac", "estimation_frac",
      "stability_selection", "estimation_score", "warm_start", "eps", "fit_intercept", "comm"]

/-- The parameters whose value is not kept under their name at all. -/
def missing : Cls → List String
  | .lasso => ["estimation_target", "warm_start", "copy_X", "logger"]
  | .elasticNet => ["estimation_target", "copy_X", "logger"]
  | .logistic => ["estimation_target", "warm_start", "logger"]
  | .poisson => ["estimation_target", "solver", "copy_X", "logger"]

/-- C99, the part that holds: the parameters listed by `readable` are attributes with the value passed
    or the default; `random_state` is if a random state object was passed; those listed by `missing`
    are not attributes.  Missing from the full statement: all other parameters. -/
theorem C99_partial (ext : Ext) (c : Cls) (g : Kw) (o : Obj) (h : ctor ext c g = .ok o) :
    (∀ k ∈ readable c, o.getattr k = .ok (passed c g k)) ∧
    (∀ s, passed c g "random_state" = .rng s → o.getattr "random_state" = .ok (.rng s)) ∧
    (∀ k ∈ missing c, o.getattr k = .error .attributeError) := by
  rw [passed_eq]
  cases c
  · obtain ⟨ha, -⟩ := lasso_ok h
    change (∀ k ∈ readable .lasso, o.getattr k = .ok (arg g lassoDefaults k)) ∧
      (∀ s, arg g lassoDefaults "random_state" = _ → _) ∧ _
    unfold Obj.getattr
    rw [ha]
    generalize arg g lassoDefaults = v
    refine ⟨?_, fun s hs => ?_, ?_⟩
    · intro k hk
      fin_cases hk <;> rfl
    · change Except.ok (storedRng (v "random_state") (v "comm")) = _
      rw [hs]; rfl
    · intro k hk
      fin_cases hk <;> rfl
  · obtain ⟨n, -, ha, -⟩ := enet_ok h
    change (∀ k ∈ readable .elasticNet, o.getattr k = .ok (arg g enetDefaults k)) ∧
      (∀ s, arg g enetDefaults "random_state" = _ → _) ∧ _
    unfold Obj.getattr
    rw [ha]
    generalize arg g enetDefaults = v
    refine ⟨?_, fun s hs => ?_, ?_⟩
    · intro k hk
      fin_cases hk <;> rfl
    · change Except.ok (storedRng (v "random_state") (v "comm")) = _
      rw [hs]; rfl
    · intro k hk
      fin_cases hk <;> rfl
  · obtain ⟨-, ha, -⟩ := logit_ok h
    change (∀ k ∈ readable .logistic, o.getattr k = .ok (arg g logitDefaults k)) ∧
      (∀ s, arg g logitDefaults "random_state" = _ → _) ∧ _
    unfold Obj.getattr
    rw [ha]
    generalize arg g logitDefaults = v
    refine ⟨?_, fun s hs => ?_, ?_⟩
    · intro k hk
      fin_cases hk <;> rfl
    · change Except.ok (storedRng (v "random_state") (v "comm")) = _
      rw [hs]; rfl
    · intro k hk
      fin_cases hk <;> rfl
  · obtain ⟨n, -, ha, -⟩ := pois_ok h
    change (∀ k ∈ readable .poisson, o.getattr k = .ok (arg g poisDefaults k)) ∧
      (∀ s, arg g poisDefaults "random_state" = _ → _) ∧ _
    unfold Obj.getattr
    rw [ha]
    generalize arg g poisDefaults = v
    refine ⟨?_, fun s hs => ?_, ?_⟩
    · intro k hk
      fin_cases hk <;> rfl
    · change Except.ok (storedRng (v "random_state") (v "comm")) = _
      rw [hs]; rfl
    · intro k hk
      fin_cases hk <;> rfl

/-- An environment in which every threshold is accepted and pycasso is not installed. -/
def exExt : Ext := ⟨fun _ _ => .ok (), false⟩

/-- All four estimators can be made, with and without arguments. -/
example : (∀ c, (ctor exExt c [("n_boots_sel", .int 7), ("estimation_target", .str "train")]).isOk) ∧
    (ctor exExt .logistic [("max_iter", .int 5)]).isOk := by
  refine ⟨fun c => ?_, by decide +kernel⟩
  cases c <;> decide +kernel

/-- C99 is false for every estimator, however it was constructed: `get_params()`, hence `repr`, `clone`
    and any `set_params(...)`, raises AttributeError. -/
theorem C99_negation (ext : Ext) (c : Cls) (g : Kw) (o : Obj) (h : ctor ext c g = .ok o) :
    getParams c o = .error .attributeError ∧
    ∀ kw, kw ≠ [] → setParams c o kw = .error .attributeError := by
  have hl : o.attrs.lookup "logger" = none := by
    have := (C99_partial ext c g o h).2.2 "logger" (by cases c <;> decide)
    unfold Obj.getattr at this
    split at this
    · cases this
    · assumption
  have hg := getParams_error (c := c) (o := o) "logger" (by cases c <;> decide) hl
  refine ⟨hg, fun kw hk => ?_⟩
  unfold setParams
  rw [if_neg hk, hg]
  rfl

/-- The documented default construction of `UoI_Lasso` has this problem. -/
example : ∃ o, ctor exExt .lasso [] = .ok o ∧ getParams .lasso o = .error .attributeError := by
  have hk : (ctor exExt .lasso []).isOk := by decide +kernel
  cases h : ctor exExt .lasso [] with
  | error e => rw [h] at hk; cases hk
  | ok o => exact ⟨o, rfl, (C99_negation _ _ _ _ h).1⟩

/-- C100.  The arguments that control the fits reach the sub-estimators: intercept, iteration limit,
    tolerance and warm start the selection model (for the pycasso solver without warm start), the
    intercept the estimation model, whose iteration limit and tolerance are also those given for the
    logistic and the Poisson estimator. -/
theorem C100_forwarded (ext : Ext) (c : Cls) (g : Kw) (o : Obj) (h : ctor ext c g = .ok o) :
    (∀ s, o.sel = some s →
      (∀ k ∈ ["fit_intercept", "max_iter", "tol"], s.kw.lookup k = some (passed c g k)) ∧
      (s.cls ≠ "PycLasso" → s.kw.lookup "warm_start" = some (passed c g "warm_start"))) ∧
    o.est.kw.lookup "fit_intercept" = some (passed c g "fit_intercept") ∧
    (c.linear = false → ∀ k ∈ ["max_iter", "tol"], o.est.kw.lookup k = some (passed c g k)) := by
  rw [passed_eq]
  cases c
  · obtain ⟨-, -, hs, he⟩ := lasso_ok h
    change (∀ s, o.sel = some s → (∀ k ∈ _, s.kw.lookup k = some (arg g lassoDefaults k)) ∧
      (_ → _ = some (arg g lassoDefaults "warm_start"))) ∧ _ = some (arg g lassoDefaults _) ∧ _
    rw [he]
    generalize arg g lassoDefaults = v at *
    refine ⟨fun s hsel => ?_, rfl, fun h => (by cases h)⟩
    rw [hsel] at hs
    unfold lassoSel at hs
    split_ifs at hs
    · cases hs
      refine ⟨?_, fun _ => rfl⟩
      intro k hk
      fin_cases hk <;> rfl
    · obtain ⟨_, _, hs⟩ := bind_ok hs
      cases hs
      refine ⟨?_, fun h => absurd rfl h⟩
      intro k hk
      fin_cases hk <;> rfl
    · cases hs
  · obtain ⟨n, -, -, -, hs, he⟩ := enet_ok h
    change (∀ s, o.sel = some s → (∀ k ∈ _, s.kw.lookup k = some (arg g enetDefaults k)) ∧
      (_ → _ = some (arg g enetDefaults "warm_start"))) ∧ _ = some (arg g enetDefaults _) ∧ _
    rw [he, hs]
    generalize arg g enetDefaults = v at *
    refine ⟨fun s hsel => ?_, rfl, fun h => (by cases h)⟩
    cases hsel
    refine ⟨?_, fun _ => rfl⟩
    intro k hk
    fin_cases hk <;> rfl
  · obtain ⟨-, -, -, hs, he⟩ := logit_ok h
    change (∀ s, o.sel = some s → (∀ k ∈ _, s.kw.lookup k = some (arg g logitDefaults k)) ∧
      (_ → _ = some (arg g logitDefaults "warm_start"))) ∧ _ = some (arg g logitDefaults _) ∧
      (_ → ∀ k ∈ _, _ = some (arg g logitDefaults k))
    rw [he, hs]
    generalize arg g logitDefaults = v at *
    refine ⟨fun s hsel => ?_, rfl, fun _ k hk => ?_⟩
    · cases hsel
      refine ⟨?_, fun _ => rfl⟩
      intro k hk
      fin_cases hk <;> rfl
    · fin_cases hk <;> rfl
  · obtain ⟨n, -, -, -, hs, he⟩ := pois_ok h
    change (∀ s, o.sel = some s → (∀ k ∈ _, s.kw.lookup k = some (arg g poisDefaults k)) ∧
      (_ → _ = some (arg g poisDefaults "warm_start"))) ∧ _ = some (arg g poisDefaults _) ∧
      (_ → ∀ k ∈ _, _ = some (arg g poisDefaults k))
    rw [he, hs]
    generalize arg g poisDefaults = v at *
    refine ⟨fun s hsel => ?_, rfl, fun _ k hk => ?_⟩
    · cases hsel
      refine ⟨?_, fun _ => rfl⟩
      intro k hk
      fin_cases hk <;> rfl
    · fin_cases hk <;> rfl

/-- A tolerance given to `UoI_L1Logistic` is that of both models. -/
example : ((ctor exExt .logistic [("tol", .float (1/7))]).toOption.map fun o =>
    (o.sel.bind (·.kw.lookup "tol"), o.est.kw.lookup "tol")) =
    some (some (.float (1/7)), some (.float (1/7))) := by decide +kernel

/-- C100.  Which rows the scores are computed on: an accepted metric is one of the class, and the target
    is the training rows (0) if `'train'` was given, the test rows (1) if `'test'` was given, and without
    one the training rows exactly for the information criteria. -/
theorem C100_target (ext : Ext) (c : Cls) (g : Kw) (o : Obj) (h : ctor ext c g = .ok o) :
    ∃ m, passed c g "estimation_score" = .str m ∧
      m ∈ ["AIC", "AICc", "BIC"] ++ (if c.linear then ["r2"] else ["log", "acc"]) ∧
      (passed c g "estimation_target" = .str "train" ∧ o.target = 0 ∨
       passed c g "estimation_target" = .str "test" ∧ o.target = 1 ∨
       passed c g "estimation_target" = .none ∧
         o.target = if m ∈ ["AIC", "AICc", "BIC"] then 0 else 1) := by
  have key : ∀ s t n, checkTarget c s t = .ok n → ∃ m, s = .str m ∧
      m ∈ ["AIC", "AICc", "BIC"] ++ (if c.linear then ["r2"] else ["log", "acc"]) ∧
      (t = .str "train" ∧ n = 0 ∨ t = .str "test" ∧ n = 1 ∨
        t = .none ∧ n = if m ∈ ["AIC", "AICc", "BIC"] then 0 else 1) := by
    intro s t n hk
    unfold checkTarget at hk
    split at hk
    · rename_i m
      have hm : ∀ u, ctorTarget c m u = .ok n →
          m ∈ ["AIC", "AICc", "BIC"] ++ (if c.linear then ["r2"] else ["log", "acc"]) := by
        intro u hu
        unfold ctorTarget at hu
        by_cases hv : m ∈ validMetrics c
        · revert hv
          cases c <;> simp only [validMetrics, Cls.linear] <;> clear hu hk <;> intro hv <;>
            simp at hv ⊢ <;> grind
        · rw [if_pos hv] at hu; cases hu
      split at hk
      · refine ⟨m, rfl, hm _ hk, .inr (.inr ⟨rfl, ?_⟩)⟩
        have h0 := hm _ hk
        unfold ctorTarget at hk
        split_ifs at hk
        · revert hk h0
          cases c <;> simp only [Cls.linear, defaultTargets] <;> intro h0 hk <;> fin_cases h0 <;>
            cases hk <;> rfl
      · rename_i u
        refine ⟨m, rfl, hm _ hk, ?_⟩
        unfold ctorTarget at hk
        rw [if_neg (not_not.2 (by by_contra hv; rw [if_pos hv] at hk; cases hk))] at hk
        have h2 : u ∈ ["train", "test"] := by
          by_contra hv; simp only [if_pos hv] at hk; cases hk
        fin_cases h2
        · cases hk; exact .inl ⟨rfl, rfl⟩
        · cases hk; exact .inr (.inl ⟨rfl, rfl⟩)
      · cases hk
    · cases hk
  rw [passed_eq]
  cases c
  · exact key _ _ _ (lasso_ok h).2.1
  · obtain ⟨_, _, _, ht, _⟩ := enet_ok h
    exact key _ _ _ ht
  · obtain ⟨_, _, ht, _⟩ := logit_ok h
    exact key _ _ _ ht
  · obtain ⟨_, _, _, ht, _⟩ := pois_ok h
    exact key _ _ _ ht

/-- The values of the parameters when nothing is passed. -/
def documented : Cls → String → Option Val
  | _, "n_boots_sel" => some (.int 24)
  | _, "n_boots_est" => some (.int 24)
  | c, "selection_frac" => some (.float (if c = .poisson then 4/5 else 9/10))
  | c, "estimation_frac" => some (.float (if c = .poisson then 4/5 else 9/10))
  | _, "stability_selection" => some (.float 1)
  | c, "estimation_score" => some (.str (match c with | .logistic => "acc" | .poisson => "log" | _ => "r2"))
  | _, "estimation_target" => some .none
  | _, "fit_intercept" => some (.bool true)
  | _, "standardize" => some (.bool true)
  | _, "random_state" => some .none
  | _, "comm" => some .none
  | _, "logger" => some .none
  | c, "warm_start" => some (.bool (c != .logistic))
  | c, "eps" => some (.float (if c = .logistic then 1/100000 else 1/1000))
  | c, "max_iter" => some (.int (if c = .logistic then 10000 else 1000))
  | c, "tol" => some (.float (match c with | .logistic => 1/1000 | .poisson => 1/100000 | _ => 1/10000))
  | .logistic, "n_C" => some (.int 48)
  | .logistic, "multi_class" => some (.str "auto")
  | .logistic, "shared_support" => some (.bool true)
  | .logistic, _ => none
  | _, "n_lambdas" => some (.int 48)
  | _, "copy_X" => some (.bool true)
  | .elasticNet, "alphas" => some (.floats [1/2])
  | .poisson, "alphas" => some (.floats [1])
  | .lasso, "solver" => some (.str "cd")
  | .poisson, "solver" => some (.str "lbfgs")
  | _, _ => none

/-- C100: the parameters a class accepts are those in the table, with the defaults there; so the four classes
    agree on every parameter they share except the fractions, the score and the settings of the
    solver.  An object constructed without arguments has these values in its readable attributes, and
    scores candidates on held-out rows. -/
theorem C100_defaults (ext : Ext) (c : Cls) :
    (∀ p ∈ defaults c, documented c p.1 = some p.2) ∧
    (∀ k v, documented c k = some v → (k, v) ∈ defaults c) ∧
    ∀ o, ctor ext c [] = .ok o → (∀ k ∈ readable c, ∃ v, documented c k = some v ∧
      o.getattr k = .ok v) ∧ o.target = 1 := by
  have h1 : ∀ p ∈ defaults c, documented c p.1 = some p.2 := by
    cases c <;> decide +kernel
  refine ⟨h1, fun k v h => ?_, fun o ho => ⟨fun k hk => ?_, ?_⟩⟩
  · clear h1
    unfold documented at h
    cases c <;> split at h <;> first | (cases h; done) | (cases h; decide +kernel) | contradiction
  · refine ⟨passed c [] k, ?_, (C99_partial ext c [] o ho).1 k hk⟩
    revert k
    cases c <;> decide +kernel
  · obtain ⟨m, h2, -, h3⟩ := C100_target ext c [] o ho
    have e : m ∉ ["AIC", "AICc", "BIC"] ∧ passed c [] "estimation_target" = .none := by
      cases c <;> cases h2 <;> exact ⟨by decide, rfl⟩
    rw [e.2] at h3
    rcases h3 with ⟨h, -⟩ | ⟨h, -⟩ | ⟨-, h⟩
    · cases h
    · cases h
    · rw [h, if_neg e.1]

/-- The default constructions exist. -/
example : ∀ c, ∃ o, ctor exExt c [] = .ok o ∧ o.target = 1 ∧ o.getattr "n_boots_sel" = .ok (.int 24) := by
  intro c
  have hk : (ctor exExt c []).isOk := by cases c <;> decide +kernel
  cases h : ctor exExt c [] with
  | error e => rw [h] at hk; cases hk
  | ok o =>
    obtain ⟨v, h1, h2⟩ := ((C100_defaults exExt c).2.2 o h).1 "n_boots_sel" (by cases c <;> decide)
    refine ⟨o, rfl, ((C100_defaults exExt c).2.2 o h).2, ?_⟩
    rw [h2]
    cases h1
    rfl

/-- Both kinds of target, given and by default. -/
example : (ctor exExt .lasso [("estimation_score", .str "BIC"), ("estimation_target", .str "test")]).toOption.map
      (·.target) = some 1 ∧
    (ctor exExt .poisson [("estimation_score", .str "acc")]).toOption.map (·.target) = some 1 ∧
    (ctor exExt .logistic [("estimation_score", .str "AICc")]).toOption.map (·.target) = some 0 := by
  decide +kernel

/-- The scores a class accepts. -/
def acceptedScore (c : Cls) (x : Val) : Prop :=
  ∃ m ∈ ["AIC", "AICc", "BIC"] ++ (if c.linear then ["r2"] else ["log", "acc"]), x = .str m

/-- C100.  With known keywords and acceptable thresholds, a score the class does not know, or a target other
    than `'train'`, `'test'` and none, is a `ValueError`; so is such a value of any other type. -/
theorem C100_invalid (ext : Ext) (c : Cls) (g : Kw) (hk : ∀ p ∈ g, p.1 ∈ (defaults c).map (·.1))
    (ht : ext.thresholds (passed c g "stability_selection") (passed c g "n_boots_sel") = .ok ())
    (h : ¬ acceptedScore c (passed c g "estimation_score") ∨
      passed c g "estimation_target" ∉ [.none, .str "train", .str "test"]) :
    ctor ext c g = .error .valueError := by
  rw [passed_eq] at ht h
  have key : ∀ s t, (¬ acceptedScore c s ∨ t ∉ [Val.none, .str "train", .str "test"]) →
      checkTarget c s t = .error .valueError := by
    clear h ht hk
    intro s t h
    have hs : ∀ m u, ¬ acceptedScore c (.str m) → ctorTarget c m u = .error .valueError := by
      intro m u hm
      unfold ctorTarget
      rw [if_pos]
      intro hv
      apply hm
      refine ⟨m, ?_, rfl⟩
      clear hm h
      revert hv
      cases c <;> simp [validMetrics, Cls.linear] <;> grind
    unfold checkTarget
    split
    · rename_i m
      rcases h with h | h
      · split
        · exact hs m _ h
        · exact hs m _ h
        · rfl
      · split
        · exact absurd (by simp) h
        · rename_i u
          have hu : u ∉ ["train", "test"] := by simpa using h
          unfold ctorTarget
          split_ifs
          · simp only [if_pos hu]
          · rfl
        · rfl
    · rfl
  cases c
  · have e := key _ _ h
    simp only [defaults] at ht e hk
    change lassoCtor ext g = _
    unfold lassoCtor
    rw [show checkKw g lassoDefaults = .ok () from if_pos hk]
    generalize arg g lassoDefaults = v at *
    simp only [bind, Except.bind]
    rw [linearInit_err (by decide) ht e]
  · have e := key _ _ h
    simp only [defaults] at ht e hk
    change enetCtor ext g = _
    unfold enetCtor
    rw [show checkKw g enetDefaults = .ok () from if_pos hk]
    generalize arg g enetDefaults = v at *
    simp only [bind, Except.bind]
    rw [linearInit_err (by decide) ht e]
  · have e := key _ _ h
    simp only [defaults] at ht e hk
    change logitCtor ext g = _
    unfold logitCtor
    rw [show checkKw g logitDefaults = .ok () from if_pos hk]
    generalize arg g logitDefaults = v at *
    simp only [bind, Except.bind]
    rw [glmInit_err (by decide) ht e]
  · have e := key _ _ h
    simp only [defaults] at ht e hk
    change poisCtor ext g = _
    unfold poisCtor
    rw [show checkKw g poisDefaults = .ok () from if_pos hk]
    generalize arg g poisDefaults = v at *
    simp only [bind, Except.bind]
    rw [glmInit_err (by decide) ht e]

example : ctor exExt .lasso [("estimation_score", .str "log")] = .error .valueError ∧
    ctor exExt .poisson [("estimation_target", .int 0)] = .error .valueError :=
  ⟨C100_invalid _ _ _ (by decide) rfl (.inl (by
      rintro ⟨m, hm, h⟩
      cases h
      revert hm
      decide)),
    C100_invalid _ _ _ (by decide) rfl (.inr (by decide))⟩

/-- C100.  The random state: an integer seed is used as such without a communicator, and with one the
    rank is added to it, so that no two ranks share a seed; without a seed a fresh one is made. -/
theorem C100_seed (ext : Ext) (c : Cls) (g : Kw) (o : Obj) (h : ctor ext c g = .ok o) :
    (∀ i, passed c g "random_state" = .int i → passed c g "comm" = .none →
      o.getattr "random_state" = .ok (.rng (some i))) ∧
    (∀ i r n, passed c g "random_state" = .int i → passed c g "comm" = .comm r n →
      o.getattr "random_state" = .ok (.rng (some (i + r)))) ∧
    (passed c g "random_state" = .none → o.getattr "random_state" = .ok (.rng none)) := by
  have key : o.getattr "random_state" =
      .ok (storedRng (passed c g "random_state") (passed c g "comm")) := by
    rw [passed_eq]
    unfold Obj.getattr
    cases c
    · rw [(lasso_ok h).1]; rfl
    · obtain ⟨n, -, ha, -⟩ := enet_ok h
      rw [ha]; rfl
    · rw [(logit_ok h).2.1]; rfl
    · obtain ⟨n, -, ha, -⟩ := pois_ok h
      rw [ha]; rfl
  rw [key]
  refine ⟨fun i h1 h2 => ?_, fun i r n h1 h2 => ?_, fun h1 => ?_⟩
  · rw [h1, h2]; rfl
  · rw [h1, h2]; rfl
  · rw [h1]; rfl

/-- Rank 2 of 3 with seed 40. -/
example : (ctor exExt .elasticNet [("random_state", .int 40), ("comm", .comm 2 3)]).toOption.map
    (·.getattr "random_state") = some (.ok (.rng (some 42))) := by decide +kernel

/-- C101, the part that holds: with `solver='cd'` there is a scikit-learn Lasso, with `'pyc'` the
    pycasso wrapper provided the package is installed and an intercept is fitted.  Missing: other
    values of `solver`. -/
theorem C101_partial (ext : Ext) (g : Kw) (o : Obj) (h : ctor ext .lasso g = .ok o) :
    (passed .lasso g "solver" = .str "cd" → ∃ s, o.selectionModel = .ok s ∧ s.cls = "Lasso") ∧
    (passed .lasso g "solver" = .str "pyc" → ext.pycasso = true ∧
      passed .lasso g "fit_intercept" ≠ .bool false ∧
      ∃ s, o.selectionModel = .ok s ∧ s.cls = "PycLasso") := by
  rw [passed_eq]
  obtain ⟨-, -, hs, -⟩ := lasso_ok h
  change (arg g lassoDefaults "solver" = _ → _) ∧ (arg g lassoDefaults "solver" = _ →
    _ ∧ arg g lassoDefaults "fit_intercept" ≠ _ ∧ _)
  generalize arg g lassoDefaults = v at *
  unfold lassoSel at hs
  constructor
  · intro hv
    rw [if_pos hv] at hs
    unfold Obj.selectionModel
    cases ho : o.sel with
    | none => rw [ho] at hs; cases hs
    | some s => rw [ho] at hs; cases hs; exact ⟨_, rfl, rfl⟩
  · intro hv
    have hne : v "solver" ≠ .str "cd" := by rw [hv]; decide
    rw [if_neg hne, if_pos hv] at hs
    split_ifs at hs with hp
    obtain ⟨_, hc, hs⟩ := bind_ok hs
    unfold pycCtor at hc
    split_ifs at hc with hf
    refine ⟨hp, hf, ?_⟩
    unfold Obj.selectionModel
    cases ho : o.sel with
    | none => rw [ho] at hs; cases hs
    | some s => rw [ho] at hs; cases hs; exact ⟨_, rfl, rfl⟩

example : (ctor ⟨fun _ _ => .ok (), true⟩ .lasso [("solver", .str "pyc")]).isOk := by decide +kernel

/-- C101 is false: any other `solver`, for example the `'lbfgs'` of the other estimators, is accepted by
    the constructor whenever `'cd'` is, and the fit then stops with AttributeError. -/
theorem C101_negation (ext : Ext) (g : Kw) (o : Obj) (x : Val) (h1 : x ≠ .str "cd") (h2 : x ≠ .str "pyc")
    (h : ctor ext .lasso (("solver", .str "cd") :: g) = .ok o) :
    ∃ o', ctor ext .lasso (("solver", x) :: g) = .ok o' ∧
      o'.selectionModel = .error .attributeError := by
  have hv : ∀ y k, k ≠ "solver" → arg (("solver", y) :: g) lassoDefaults k = arg g lassoDefaults k := by
    intro y k hk
    unfold arg
    rw [List.lookup_cons, beq_false_of_ne hk]
  have hs : ∀ y, arg (("solver", y) :: g) lassoDefaults "solver" = y := fun y => rfl
  have hck : checkKw (("solver", x) :: g) lassoDefaults = checkKw (("solver", .str "cd") :: g) lassoDefaults := by
    unfold checkKw
    simp only [List.forall_mem_cons]
  change lassoCtor _ _ = _ at h
  change ∃ o', lassoCtor _ _ = _ ∧ _
  unfold lassoCtor at h ⊢
  rw [hck]
  obtain ⟨u, hu, h⟩ := bind_ok h
  rw [hu]
  obtain ⟨r, hr, h⟩ := bind_ok h
  have hfw : forward ["n_boots_sel", "n_boots_est", "selection_frac",
      "estimation_frac", "estimation_target", "stability_selection", "copy_X", "fit_intercept",
      "standardize", "random_state", "comm", "estimation_score", "max_iter", "tol", "logger"]
        (arg (("solver", x) :: g) lassoDefaults) = forward ["n_boots_sel", "n_boots_est", "selection_frac",
      "estimation_frac", "estimation_target", "stability_selection", "copy_X", "fit_intercept",
      "standardize", "random_state", "comm", "estimation_score", "max_iter", "tol", "logger"]
        (arg (("solver", .str "cd") :: g) lassoDefaults) := by
    unfold forward
    apply List.map_congr_left
    intro k hk
    have : k ≠ "solver" := by rintro rfl; revert hk; decide
    rw [hv _ _ this, hv _ _ this]
  have hsel : lassoSel ext (arg (("solver", x) :: g) lassoDefaults) = .ok none := by
    unfold lassoSel
    rw [hs, if_neg h1, if_neg h2]
  refine ⟨⟨forward ["tol", "solver", "eps", "n_lambdas"] (arg (("solver", x) :: g) lassoDefaults) ++ r.1,
      r.2, none, ⟨"LinearRegression", forward ["fit_intercept"] (arg (("solver", x) :: g) lassoDefaults)⟩⟩,
      ?_, ?_⟩
  · change (linearInit ext .lasso (forward _ _) >>= _) = _
    rw [hfw, hr]
    change (lassoSel ext _ >>= _) = _
    rw [hsel]
    rfl
  · rfl

/-- `UoI_Lasso(solver='lbfgs')`. -/
example : (ctor exExt .lasso [("solver", .str "lbfgs")]).isOk ∧ (ctor exExt .lasso [("solver", .str "cd")]).isOk := by
  decide +kernel

/-- C102, the part that holds, for the wrapper of the pycasso solver: it predicts only after a fit;
    a sweep returns the solver's coefficients for exactly the given penalties, in their order, with the
    iteration limit and tolerance of the object; the prediction for a sample and a penalty is the inner
    product with the coefficients of that penalty plus its intercept; alphas, fit_intercept and max_iter
    can be set afterwards.  Missing: `tol`. -/
theorem C102_partial {K D : Type} [Add K] [Mul K] [Zero K]
    (solve : D → List K → Int → K → List (List K) × List K) (alphas : Option (List K)) (maxIter : Int)
    (tol : K) (o : Pyc K) (h : Pyc.new alphas true maxIter tol = .ok o) (d : D) (l : List K) (X : List (List K)) :
    o.predict X = .error .notFitted ∧
    pycSweep solve o d l = .ok (solve d l maxIter tol).1 ∧
    (∀ (o' : Pyc K), (o.setParams [.alphas l]).1.fit solve d = .ok o' →
      ∃ Y, o'.predict X = .ok Y ∧ ∀ (i j : Nat) (x c : List K) (b : K), X[i]? = some x →
        (solve d l maxIter tol).1[j]? = some c → (solve d l maxIter tol).2[j]? = some b →
        (Y[i]?).bind (·[j]?) = some ((List.zipWith (· * ·) x c).foldl (· + ·) 0 + b)) ∧
    (∀ (l' : List K) (b : Bool) (n : Int), o.setParams [.alphas l', .fitIntercept b, .maxIter n] =
      (⟨some l', b, n, tol, none⟩, none)) := by
  cases h
  refine ⟨rfl, rfl, fun o' ho => ?_, fun _ _ _ => rfl⟩
  change Except.ok _ = Except.ok o' at ho
  cases ho
  refine ⟨_, rfl, fun i j x c b hx hc hb => ?_⟩
  rw [List.getElem?_map, hx]
  change (List.zipWith _ _ _)[j]? = _
  rw [List.getElem?_zipWith]
  simp only [Pyc.setParams, hc, hb]

/-- Two penalties, one feature: the coefficient path `[3], [1]` with intercepts 0 and 2. -/
example : let solve : Unit → List ℚ → Int → ℚ → List (List ℚ) × List ℚ := fun _ _ _ _ => ([[3], [1]], [0, 2])
    (Pyc.new (K := ℚ) none true 1000 (1/10000)).isOk ∧
    (((Pyc.new none true 1000 (1/10000)).bind fun o => ((o.setParams [.alphas [2, 1]]).1.fit solve ()).bind
      fun o => o.predict [[5], [7]]) = .ok [[15, 7], [21, 9]]) := by decide +kernel

/-- C102 is false for the documented parameter `tol`: setting it raises ValueError, and the parameters
    named before it in the same call have already been changed. -/
theorem C102_negation {K : Type} (o : Pyc K) (n : Int) (t : K) :
    o.setParams [.maxIter n, .tol t] = ({ o with maxIter := n }, some .valueError) := rfl

example : ((⟨none, true, 1000, 1/10000, none⟩ : Pyc ℚ).setParams [.maxIter 5, .tol (1/100)]).1.maxIter = 5 := rfl

end Verif.Ctors
