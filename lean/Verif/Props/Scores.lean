import Verif.Model.Scores
/-!
C28, C29 (negated criteria), C32: score arguments and the constructor of `UoI_Poisson`.
-/
namespace Verif.Scores
open Verif.Py Verif.Utils

/-- A candidate with 3 features, scored on 20 rows. -/
noncomputable def demoCand : Cand := ⟨1 / 2, 3 / 4, -1, -7, -2, 3, true, 20⟩

/-! ### C32 -/

/-- **C32** is false: `UoI_Poisson` accepts `estimation_score='acc'`, but every candidate then
    raises `ValueError` when it is scored. -/
theorem C32_negation : ctorTarget .poisson "acc" none = .ok 1 ∧
    ∀ c, scoreOf .poisson "acc" c = .error .valueError := by
  exact ⟨by decide, fun c => by simp [scoreOf, scorePoisson]⟩

/-- **C32** for everything but `UoI_Poisson` with 'acc': an accepted score can be computed for every
    candidate. -/
theorem C32_accepted_can_be_scored_partial (cls : Cls) (score : String) (target : Option String)
    (t : Nat) (h : ctorTarget cls score target = .ok t) (hp : ¬(cls = .poisson ∧ score = "acc"))
    (c : Cand) : ∃ x, scoreOf cls score c = .ok x := by
  have hv : score ∈ validMetrics cls := by
    by_contra hv
    simp [ctorTarget, hv] at h
  cases cls <;> simp only [validMetrics, List.mem_cons, List.mem_append, List.not_mem_nil, or_false]
    at hv
  · rcases hv with rfl | rfl | rfl | rfl <;> exact ⟨_, rfl⟩
  · rcases hv with rfl | rfl | rfl | rfl <;> exact ⟨_, rfl⟩
  · rcases hv with (rfl | rfl | rfl | rfl | rfl) | rfl <;> exact ⟨_, rfl⟩
  · rcases hv with rfl | rfl | rfl | rfl | rfl
    · exact ⟨_, rfl⟩
    · exact ⟨_, rfl⟩
    · exact ⟨_, rfl⟩
    · exact ⟨_, rfl⟩
    · exact absurd ⟨rfl, rfl⟩ hp

/-- **C32**, targets: an accepted score has target 'test' (1) by default exactly when it is
    predictive (r2, log, acc) and 'train' (0) when it is an information criterion; an explicit
    target is honoured; everything else is a `ValueError`. -/
theorem C32_targets (cls : Cls) (score : String) :
    (score ∈ ["AIC", "AICc", "BIC"] → ctorTarget cls score none = .ok 0) ∧
    (score = "r2" ∧ cls.linear = true ∨ score ∈ ["log", "acc"] ∧ cls.linear = false →
      ctorTarget cls score none = .ok 1) ∧
    (∀ t, ctorTarget cls score none = .ok t →
      ctorTarget cls score (some "train") = .ok 0 ∧ ctorTarget cls score (some "test") = .ok 1) ∧
    (∀ target t, ctorTarget cls score target = .ok t →
      score ∈ ["AIC", "AICc", "BIC"] ∨ score = "r2" ∧ cls.linear = true ∨
        score ∈ ["log", "acc"] ∧ cls.linear = false) ∧
    ∀ target e, ctorTarget cls score target = .error e → e = .valueError := by
  have hcases : score ∈ validMetrics cls →
      score ∈ ["AIC", "AICc", "BIC"] ∨ score = "r2" ∧ cls.linear = true ∨
        score ∈ ["log", "acc"] ∧ cls.linear = false := by
    cases cls <;> simp only [validMetrics, List.mem_cons, List.mem_append, List.not_mem_nil, or_false]
      <;> rintro h <;> rcases h with h | h <;> simp_all [Cls.linear] <;> tauto
  refine ⟨?_, ?_, ?_, ?_, ?_⟩
  · intro h
    simp only [List.mem_cons, List.not_mem_nil, or_false] at h
    rcases h with rfl | rfl | rfl <;> cases cls <;> decide
  · intro h
    rcases h with ⟨rfl, h⟩ | ⟨h, hl⟩
    · cases cls <;> first | (exact absurd h (by decide)) | decide
    · simp only [List.mem_cons, List.not_mem_nil, or_false] at h
      rcases h with rfl | rfl <;> cases cls <;> first | (exact absurd hl (by decide)) | decide
  · intro t h
    have hv : score ∈ validMetrics cls := by
      by_contra hv
      simp [ctorTarget, hv] at h
    unfold ctorTarget
    simp only [hv, not_true, if_false]
    exact ⟨by decide, by decide⟩
  · intro target t h
    apply hcases
    by_contra hv
    simp [ctorTarget, hv] at h
  · intro target e h
    unfold ctorTarget at h
    split at h
    · injection h with h; exact h.symm
    · rename_i hv
      have hv : score ∈ validMetrics cls := not_not.1 hv
      cases target with
      | some t =>
        simp only at h
        split at h
        · injection h with h; exact h.symm
        · rename_i ht
          simp only [List.mem_cons, List.not_mem_nil, or_false, not_not] at ht
          rcases ht with rfl | rfl <;> simp [trainTestMap, List.lookup] at h
      | none =>
        exfalso
        rcases hcases hv with h' | ⟨h', hl⟩ | ⟨h', hl⟩
        · simp only [List.mem_cons, List.not_mem_nil, or_false] at h'
          rcases h' with rfl | rfl | rfl <;> cases cls <;>
            simp [defaultTargets, Cls.linear, List.lookup] at h
        · subst h'
          cases cls <;> first | (exact absurd hl (by decide)) |
              (simp [defaultTargets, Cls.linear, List.lookup] at h)
        · simp only [List.mem_cons, List.not_mem_nil, or_false] at h'
          rcases h' with rfl | rfl <;> cases cls <;>
            first | (exact absurd hl (by decide)) |
              (simp [defaultTargets, Cls.linear, List.lookup] at h)

example : ctorTarget .logistic "log" none = .ok 1 ∧ ctorTarget .lasso "log" none = .error .valueError ∧
    ∃ x, scoreOf .logistic "log" demoCand = .ok x :=
  ⟨by decide, by decide, C32_accepted_can_be_scored_partial .logistic "log" none 1 (by decide)
    (by decide) demoCand⟩

/-! ### C29, the scores -/

/-- **C29**: with an information criterion the score of a candidate is the negated criterion of its
    total log-likelihood, number of features and number of rows (Poisson counts a nonzero intercept
    as a feature). -/
theorem C29_score_is_negated_criterion (c : Cand) :
    (∀ cls, cls = .lasso ∨ cls = .elasticNet →
      scoreOf cls "AIC" c = .ok (-AIC c.llNormal c.k) ∧
      scoreOf cls "AICc" c = .ok (-AICc c.llNormal c.k c.n) ∧
      scoreOf cls "BIC" c = .ok (-BIC c.llNormal c.k c.n)) ∧
    scoreOf .logistic "AIC" c = .ok (-AIC (c.n * c.logProb) c.k) ∧
    scoreOf .logistic "AICc" c = .ok (-AICc (c.n * c.logProb) c.k c.n) ∧
    scoreOf .logistic "BIC" c = .ok (-BIC (c.n * c.logProb) c.k c.n) ∧
    ∃ k, k = c.k + (if c.hasIntercept then 1 else 0) ∧
      scoreOf .poisson "AIC" c = .ok (-AIC (c.n * c.llPoisson) k) ∧
      scoreOf .poisson "AICc" c = .ok (-AICc (c.n * c.llPoisson) k c.n) ∧
      scoreOf .poisson "BIC" c = .ok (-BIC (c.n * c.llPoisson) k c.n) := by
  refine ⟨?_, rfl, rfl, rfl, _, rfl, ?_⟩
  · rintro cls (rfl | rfl) <;> exact ⟨rfl, rfl, rfl⟩
  · cases h : c.hasIntercept <;> simp [scoreOf, scorePoisson, h]

/-- Three features and an intercept, total log-likelihood -40. -/
example : scoreOf .poisson "AIC" demoCand = .ok (-88) := by
  obtain ⟨k, hk, h, _⟩ := (C29_score_is_negated_criterion demoCand).2.2.2.2
  rw [h, hk]
  norm_num [AIC, demoCand]

/-! ### C28 -/

/-- Arguments with `standardize=False`. -/
def demoArgs : PoisArgs := ⟨4, 4, "log", none, "lbfgs", true, true, false, 100, 1 / 100⟩

/-- **C28** is false: `standardize=False` is ignored (the data are standardized for every value of the
    argument), and 'acc' is accepted although it cannot be computed. -/
theorem C28_negation :
    (∃ o, poisCtor demoArgs = .ok o ∧ demoArgs.standardize = false ∧ o.standardizes = true) ∧
    (∃ o, poisCtor { demoArgs with score := "acc" } = .ok o ∧
      ∀ c, scoreOf .poisson o.score c = .error .valueError) := by
  refine ⟨⟨_, rfl, rfl, rfl⟩, _, rfl, fun c => ?_⟩
  simp [scoreOf, scorePoisson]

/-- **C28**, the arguments that take effect: numbers of bootstraps, score and target, intercept,
    solver settings, warm start and scaling of the selection solver; `standardize=True` too.  The
    estimation solver starts afresh and takes the data as they are.  Missing: see `C28_negation`. -/
theorem C28_arguments_partial (a : PoisArgs) (o : PoisObj) (h : poisCtor a = .ok o) :
    o.nBootsSel = a.nBootsSel ∧ o.nBootsEst = a.nBootsEst ∧ o.score = a.score ∧
      (a.target = some "train" → o.target = 0) ∧ (a.target = some "test" → o.target = 1) ∧
      o.fitIntercept = a.fitIntercept ∧ o.sel.fitIntercept = a.fitIntercept ∧
      o.est.fitIntercept = a.fitIntercept ∧ o.sel.solver = a.solver ∧ o.est.solver = a.solver ∧
      o.sel.maxIter = a.maxIter ∧ o.est.maxIter = a.maxIter ∧ o.sel.tol = a.tol ∧
      o.est.tol = a.tol ∧ o.sel.warmStart = a.warmStart ∧
      o.sel.standardize = a.standardize ∧ o.est.standardize = false ∧ o.est.warmStart = false ∧
      (a.standardize = true → o.standardizes = true) ∧
      (a.score ≠ "acc" → ∀ c, ∃ x, scoreOf .poisson o.score c = .ok x) := by
  unfold poisCtor at h
  split at h
  · cases h
  · rename_i t ht
    injection h with h
    subst h
    refine ⟨rfl, rfl, rfl, fun hx => ?_, fun hx => ?_, rfl, rfl, rfl, rfl, rfl, rfl, rfl, rfl, rfl,
      rfl, rfl, rfl, rfl, fun _ => rfl, fun hs c => ?_⟩
    · rw [hx] at ht
      unfold ctorTarget at ht
      split at ht
      · cases ht
      · simp [trainTestMap] at ht; exact ht.symm
    · rw [hx] at ht
      unfold ctorTarget at ht
      split at ht
      · cases ht
      · simp [trainTestMap, List.lookup] at ht; exact ht.symm
    · exact C32_accepted_can_be_scored_partial .poisson _ _ t ht (fun hh => hs hh.2) c

example : ∃ o, poisCtor { demoArgs with target := some "train" } = .ok o ∧ o.target = 0 :=
  ⟨_, rfl, (C28_arguments_partial { demoArgs with target := some "train" } _ rfl).2.2.2.1 rfl⟩

end Verif.Scores
