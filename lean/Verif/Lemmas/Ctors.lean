import Verif.Model.Ctors
/-! Helper lemmas about the constructors. -/
namespace Verif.Ctors
open Verif.Scores

theorem bind_ok {α β : Type} {x : Except PyErr α} {f : α → Except PyErr β} {b : β}
    (h : (x >>= f) = .ok b) : ∃ a, x = .ok a ∧ f a = .ok b := by
  cases x with
  | error e => exact absurd h (by intro h; cases h)
  | ok a => exact ⟨a, rfl, h⟩

/-- The attributes common to all estimators. -/
def commonAttrs (v : String → Val) (std shared iter tol : Val) : Kw :=
  [("estimation_score", v "estimation_score"),
   ("random_state", storedRng (v "random_state") (v "comm")), ("selection_frac", v "selection_frac"),
   ("estimation_frac", v "estimation_frac"), ("n_boots_sel", v "n_boots_sel"),
   ("n_boots_est", v "n_boots_est"), ("stability_selection", v "stability_selection"),
   ("fit_intercept", v "fit_intercept"), ("standardize", std), ("shared_support", shared),
   ("max_iter", iter), ("tol", tol), ("comm", v "comm")]

theorem lasso_ok {ext : Ext} {g : Kw} {o : Obj} (h : lassoCtor ext g = .ok o) :
    let v := arg g lassoDefaults
    o.attrs = forward ["tol", "solver", "eps", "n_lambdas"] v ++
      commonAttrs v (v "standardize") (.bool true) (v "max_iter") (v "tol") ∧
    checkTarget .lasso (v "estimation_score") (v "estimation_target") = .ok o.target ∧
    lassoSel ext v = .ok o.sel ∧ o.est = ⟨"LinearRegression", forward ["fit_intercept"] v⟩ := by
  unfold lassoCtor at h
  obtain ⟨_, _, h⟩ := bind_ok h
  obtain ⟨r, hr, h⟩ := bind_ok h
  obtain ⟨sel, hsel, h⟩ := bind_ok h
  unfold linearInit at hr
  obtain ⟨_, _, hr⟩ := bind_ok hr
  obtain ⟨a, ha, hr⟩ := bind_ok hr
  obtain ⟨t, ht, hr⟩ := bind_ok hr
  unfold baseInit at ha
  obtain ⟨_, _, ha⟩ := bind_ok ha
  obtain ⟨_, _, ha⟩ := bind_ok ha
  cases h
  cases hr
  cases ha
  dsimp only
  generalize arg g lassoDefaults = v at *
  refine ⟨?_, ht, hsel, rfl⟩
  rfl

theorem enet_ok {ext : Ext} {g : Kw} {o : Obj} (h : enetCtor ext g = .ok o) :
    let v := arg g enetDefaults
    ∃ n, lenOf (v "alphas") = .ok n ∧
    o.attrs = ("lambdas", .none) :: ("n_alphas", .int n) ::
      forward ["eps", "warm_start", "alphas", "n_lambdas"] v ++
      commonAttrs v (v "standardize") (.bool true) (v "max_iter") (v "tol") ∧
    checkTarget .elasticNet (v "estimation_score") (v "estimation_target") = .ok o.target ∧
    o.sel = some ⟨"ElasticNet", forward ["fit_intercept", "max_iter", "tol", "copy_X", "warm_start",
      "random_state"] v⟩ ∧ o.est = ⟨"LinearRegression", forward ["fit_intercept"] v⟩ := by
  unfold enetCtor at h
  obtain ⟨_, _, h⟩ := bind_ok h
  obtain ⟨r, hr, h⟩ := bind_ok h
  obtain ⟨n, hn, h⟩ := bind_ok h
  unfold linearInit at hr
  obtain ⟨_, _, hr⟩ := bind_ok hr
  obtain ⟨a, ha, hr⟩ := bind_ok hr
  obtain ⟨t, ht, hr⟩ := bind_ok hr
  unfold baseInit at ha
  obtain ⟨_, _, ha⟩ := bind_ok ha
  obtain ⟨_, _, ha⟩ := bind_ok ha
  cases h
  cases hr
  cases ha
  dsimp only
  generalize arg g enetDefaults = v at *
  refine ⟨n, hn, ?_, ht, rfl, rfl⟩
  rfl

theorem logit_ok {ext : Ext} {g : Kw} {o : Obj} (h : logitCtor ext g = .ok o) :
    let v := arg g logitDefaults
    maskedCtor (v "multi_class") = .ok () ∧
    o.attrs = ("solver", .str "lbfgs") :: ("Cs", .none) :: forward ["tol", "eps", "multi_class", "n_C"] v ++
      commonAttrs v (v "standardize") (v "shared_support") .none .none ∧
    checkTarget .logistic (v "estimation_score") (v "estimation_target") = .ok o.target ∧
    o.sel = some ⟨"MaskedCoefLogisticRegression", ("penalty", .str "l1") ::
      forward ["max_iter", "warm_start", "multi_class", "fit_intercept", "tol"] v⟩ ∧
    o.est = ⟨"MaskedCoefLogisticRegression", ("C", .inf) ::
      forward ["multi_class", "fit_intercept", "max_iter", "tol"] v⟩ := by
  unfold logitCtor at h
  obtain ⟨_, _, h⟩ := bind_ok h
  obtain ⟨r, hr, h⟩ := bind_ok h
  obtain ⟨_, hn, h⟩ := bind_ok h
  unfold glmInit at hr
  obtain ⟨_, _, hr⟩ := bind_ok hr
  obtain ⟨a, ha, hr⟩ := bind_ok hr
  obtain ⟨t, ht, hr⟩ := bind_ok hr
  unfold baseInit at ha
  obtain ⟨_, _, ha⟩ := bind_ok ha
  obtain ⟨_, _, ha⟩ := bind_ok ha
  cases h
  cases hr
  cases ha
  dsimp only
  generalize arg g logitDefaults = v at *
  refine ⟨hn, ?_, ht, rfl, rfl⟩
  rfl

theorem pois_ok {ext : Ext} {g : Kw} {o : Obj} (h : poisCtor ext g = .ok o) :
    let v := arg g poisDefaults
    ∃ n, lenOf (v "alphas") = .ok n ∧
    o.attrs = ("lambdas", .none) :: ("n_alphas", .int n) ::
      forward ["eps", "warm_start", "alphas", "n_lambdas"] v ++
      commonAttrs v (.bool true) (.bool true) .none .none ∧
    checkTarget .poisson (v "estimation_score") (v "estimation_target") = .ok o.target ∧
    o.sel = some ⟨"Poisson", forward ["fit_intercept", "standardize", "max_iter", "tol", "warm_start",
      "solver"] v⟩ ∧
    o.est = ⟨"Poisson", ("alpha", .float 0) :: ("l1_ratio", .float 1) :: ("warm_start", .bool false) ::
      forward ["fit_intercept", "max_iter", "tol", "solver"] v⟩ := by
  unfold poisCtor at h
  obtain ⟨_, _, h⟩ := bind_ok h
  obtain ⟨r, hr, h⟩ := bind_ok h
  obtain ⟨n, hn, h⟩ := bind_ok h
  unfold glmInit at hr
  obtain ⟨_, _, hr⟩ := bind_ok hr
  obtain ⟨a, ha, hr⟩ := bind_ok hr
  obtain ⟨t, ht, hr⟩ := bind_ok hr
  unfold baseInit at ha
  obtain ⟨_, _, ha⟩ := bind_ok ha
  obtain ⟨_, _, ha⟩ := bind_ok ha
  cases h
  cases hr
  cases ha
  dsimp only
  generalize arg g poisDefaults = v at *
  refine ⟨n, hn, ?_, ht, rfl, rfl⟩
  rfl

theorem checkKw_forward {names : List String} {d : Kw} (v : String → Val)
    (h : ∀ k ∈ names, k ∈ d.map (·.1)) : checkKw (forward names v) d = .ok () := by
  unfold checkKw
  rw [if_pos]
  intro p hp
  obtain ⟨k, hk, rfl⟩ := List.mem_map.mp hp
  exact h k hk

theorem linearInit_err {ext : Ext} {c : Cls} {names : List String} {v : String → Val} {e : PyErr}
    (h1 : ∀ k ∈ names, k ∈ linearDefaults.map (·.1))
    (ht : ext.thresholds (arg (forward names v) linearDefaults "stability_selection")
      (arg (forward names v) linearDefaults "n_boots_sel") = .ok ())
    (he : checkTarget c (arg (forward names v) linearDefaults "estimation_score")
      (arg (forward names v) linearDefaults "estimation_target") = .error e) :
    linearInit ext c (forward names v) = .error e := by
  unfold linearInit
  rw [checkKw_forward v h1]
  generalize arg (forward names v) linearDefaults = w at *
  change (baseInit ext (forward _ w) >>= _) = _
  unfold baseInit
  rw [checkKw_forward w (by decide)]
  change ((ext.thresholds (w "stability_selection") (w "n_boots_sel") >>= _) >>= _) = _
  rw [ht]
  change (checkTarget c (w "estimation_score") (w "estimation_target") >>= _) = _
  rw [he]
  rfl

theorem glmInit_err {ext : Ext} {c : Cls} {names : List String} {v : String → Val} {e : PyErr}
    (h1 : ∀ k ∈ names, k ∈ glmDefaults.map (·.1))
    (ht : ext.thresholds (arg (forward names v) glmDefaults "stability_selection")
      (arg (forward names v) glmDefaults "n_boots_sel") = .ok ())
    (he : checkTarget c (arg (forward names v) glmDefaults "estimation_score")
      (arg (forward names v) glmDefaults "estimation_target") = .error e) :
    glmInit ext c (forward names v) = .error e := by
  unfold glmInit
  rw [checkKw_forward v h1]
  generalize arg (forward names v) glmDefaults = w at *
  change (baseInit ext (forward _ w) >>= _) = _
  unfold baseInit
  rw [checkKw_forward w (by decide)]
  change ((ext.thresholds (w "stability_selection") (w "n_boots_sel") >>= _) >>= _) = _
  rw [ht]
  change (checkTarget c (w "estimation_score") (w "estimation_target") >>= _) = _
  rw [he]
  rfl

/-- `mapM` fails with the only error its function can raise, if it raises at all. -/
theorem mapM_error {α β : Type} (f : α → Except PyErr β) (e : PyErr) :
    ∀ l : List α, (∃ a ∈ l, ∃ e', f a = .error e') → (∀ a ∈ l, ∀ e', f a = .error e' → e' = e) →
      l.mapM f = .error e := by
  intro l
  induction l with
  | nil => rintro ⟨a, ha, _⟩; cases ha
  | cons a l ih =>
    intro h hall
    rw [List.mapM_cons]
    cases hf : f a with
    | error e' => rw [hall a List.mem_cons_self e' hf]; rfl
    | ok b =>
      have : l.mapM f = .error e := by
        apply ih
        · obtain ⟨a', ha', e', he'⟩ := h
          rcases List.mem_cons.1 ha' with rfl | ha'
          · rw [hf] at he'; cases he'
          · exact ⟨a', ha', e', he'⟩
        · exact fun a' h' => hall a' (List.mem_cons_of_mem _ h')
      rw [this]
      rfl

theorem getattr_error {o : Obj} {k : String} {e : PyErr} (h : o.getattr k = .error e) :
    e = .attributeError := by
  unfold Obj.getattr at h
  split at h
  · cases h
  · cases h; rfl

theorem getParams_error {c : Cls} {o : Obj} (k : String) (hk : k ∈ (defaults c).map (·.1))
    (h : o.attrs.lookup k = none) : getParams c o = .error .attributeError := by
  apply mapM_error
  · obtain ⟨p, hp, rfl⟩ := List.mem_map.1 hk
    refine ⟨p, hp, .attributeError, ?_⟩
    unfold Obj.getattr
    rw [h]
    rfl
  · intro p _ e he
    cases hg : o.getattr p.1 with
    | error e' => rw [hg] at he; cases he; exact getattr_error hg
    | ok v => rw [hg] at he; cases he

end Verif.Ctors
