import Verif.Model.Estimator
import Verif.Spec.Estimator
import Verif.Lemmas.WarmStart
import Verif.Lemmas.Exec
import Verif.Spec.Fit
import Verif.Props.Fit
import Verif.Props.Grid
import Verif.Lemmas.Estimator
/-!
C19-C21: histories of fits on one estimator, and seeds.
-/
namespace Verif.Estimator
open Verif.Py Verif.Fit Verif.Intersection Verif.Spec.Fit
variable {D K G S M RP : Type}

/-! ### C19 -/

/-- **C19**, for a non-constant response and a grid that is not left over from an earlier fit: after
    `fit` every fitted attribute is what a new estimator with the same random generator would have,
    whatever object we started from (so after every history, failed fits included).  Missing:
    constant responses and reused grids (`C19_negation`, `C20_negation`). -/
theorem C19_attributes_partial [LinearOrder K] [Field K] (c : Cls D K G S M RP)
    (o o' : Obj K G S RP) (d : D) (hy : c.constY d = false)
    (hgrid : c.caches = false ∨ o.cache = none) (hF : Forgets (c.env d (c.grid d)))
    (h : c.fit o d = .ok o') (s0 : S) :
    ∃ o'', c.fit (Obj.new o.gen s0) d = .ok o'' ∧ SameAttrs o' o'' := by
  have hr : (c.getRegParams o.cache d).1 = c.grid d := by
    unfold Cls.getRegParams
    rcases hgrid with hc | hc <;> rw [hc] <;> simp
    split <;> rfl
  have hr0 : (c.getRegParams none d).1 = c.grid d := by
    unfold Cls.getRegParams; split <;> rfl
  unfold Cls.fit at h ⊢
  simp only [hy, Bool.false_eq_true, if_false, hr, Obj.new, hr0] at h ⊢
  rw [fit_forgets hF 1 0 o.gen s0 o.sel]
  revert h
  cases (Fit.fit (c.env d (c.grid d)) 1 0 o.gen o.sel).outcome with
  | none => intro h; cases h
  | some r =>
    cases r with
    | error e => intro h; cases h
    | ok st =>
      intro h
      injection h with h
      subst h
      exact ⟨_, rfl, rfl, rfl, rfl, rfl, rfl, rfl, rfl⟩

/-- **C19** for constant responses: at least `coef_` and `intercept_` are those of a new
    estimator. -/
theorem C19_constant_partial [LinearOrder K] [Field K] (c : Cls D K G S M RP)
    (o o' : Obj K G S RP) (d : D) (hy : c.constY d = true) (h : c.fit o d = .ok o') (g : G) (s0 : S) :
    ∃ o'', c.fit (Obj.new g s0) d = .ok o'' ∧ o'.coef = o''.coef ∧ o'.intercept = o''.intercept := by
  unfold Cls.fit at h ⊢
  simp only [hy, if_true] at h ⊢
  cases h1 : (c.env d []).fitIntercept (zeros (c.env d []).outDim (c.env d []).nFeat) with
  | error e => rw [h1] at h; cases h
  | ok i =>
    rw [h1] at h
    simp only at h ⊢
    cases h2 : (c.env d []).post (zeros (c.env d []).outDim (c.env d []).nFeat) i with
    | error e => rw [h2] at h; cases h
    | ok ci =>
      rw [h2] at h
      simp only [Except.ok.injEq] at h ⊢
      subst h
      exact ⟨_, rfl, rfl, rfl⟩

/-- A class over the example problem of C08: data set `k` has grid `[k, k/2]`; data set 0 has a
    constant response. -/
def demoCls (caches : Bool) : Cls Nat ℚ Nat ℚ (List ℚ) ℚ where
  caches := caches
  grid d := [d, d / 2]
  env _ regs := { demo with regParams := regs }
  constY d := d == 0
  after _ g s := (g + 12, s)

/-- **C19** is false: after fitting data set 1 and then data set 0 (constant response), `supports_`
    and `scores_` are still those of data set 1; a new estimator fitted on data set 0 has neither. -/
theorem C19_negation : ∃ o1 o2 o0 : Obj ℚ Nat ℚ ℚ,
    (demoCls false).fits (Obj.new 0 0) [1] = .ok o1 ∧
    (demoCls false).fits (Obj.new 0 0) [1, 0] = .ok o2 ∧
    (demoCls false).fits (Obj.new 0 0) [0] = .ok o0 ∧
    o2.supports = o1.supports ∧ o2.scores = o1.scores ∧ o2.supports ≠ none ∧
    o0.supports = none ∧ o0.scores = none ∧ o2.coef = o0.coef := by
  have h : ((demoCls false).fits (Obj.new 0 0) [1]).toOption.isSome ∧
      ((demoCls false).fits (Obj.new 0 0) [1, 0]).toOption.isSome ∧
      ((demoCls false).fits (Obj.new 0 0) [0]).toOption.isSome := by
    decide +kernel
  cases h1 : (demoCls false).fits (Obj.new 0 0) [1] with
  | error e => rw [h1] at h; exact absurd h.1 (by simp [Except.toOption])
  | ok o1 =>
    cases h2 : (demoCls false).fits (Obj.new 0 0) [1, 0] with
    | error e => rw [h2] at h; exact absurd h.2.1 (by simp [Except.toOption])
    | ok o2 =>
      cases h3 : (demoCls false).fits (Obj.new 0 0) [0] with
      | error e => rw [h3] at h; exact absurd h.2.2 (by simp [Except.toOption])
      | ok o0 =>
        have e1 : ((demoCls false).fits (Obj.new 0 0) [1]).toOption = some o1 := by rw [h1]; rfl
        have e2 : ((demoCls false).fits (Obj.new 0 0) [1, 0]).toOption = some o2 := by rw [h2]; rfl
        have e3 : ((demoCls false).fits (Obj.new 0 0) [0]).toOption = some o0 := by rw [h3]; rfl
        have k : (((demoCls false).fits (Obj.new 0 0) [1]).toOption.map fun o => (o.supports, o.scores)) =
            (((demoCls false).fits (Obj.new 0 0) [1, 0]).toOption.map fun o => (o.supports, o.scores)) ∧
            (((demoCls false).fits (Obj.new 0 0) [1, 0]).toOption.map fun o => o.supports.isSome) =
              some true ∧
            (((demoCls false).fits (Obj.new 0 0) [0]).toOption.map fun o => (o.supports, o.scores)) =
              some (none, none) ∧
            (((demoCls false).fits (Obj.new 0 0) [0]).toOption.map fun o => o.coef) =
              (((demoCls false).fits (Obj.new 0 0) [1, 0]).toOption.map fun o => o.coef) := by
          decide +kernel
        rw [e1, e2, e3] at k
        simp only [Option.map_some, Option.some.injEq, Prod.mk.injEq] at k
        obtain ⟨⟨k1, k2⟩, k3, ⟨k4, k5⟩, k6⟩ := k
        exact ⟨o1, o2, o0, rfl, rfl, rfl, k1.symm, k2.symm, (by intro h; rw [h] at k3; cases k3),
          k4, k5, k6.symm⟩

example : ∃ o' o'' : Obj ℚ Nat ℚ ℚ, (demoCls false).fits (Obj.new 0 0) [2, 1] = .ok o' ∧
    (demoCls false).fit (Obj.new 12 7) 1 = .ok o'' ∧ SameAttrs o' o'' := by
  have h : ((demoCls false).fits (Obj.new 0 0) [2]).toOption.isSome ∧
      ((demoCls false).fits (Obj.new 0 0) [2, 1]).toOption.isSome := by decide +kernel
  cases h1 : (demoCls false).fits (Obj.new 0 0) [2, 1] with
  | error e => rw [h1] at h; exact absurd h.2 (by simp [Except.toOption])
  | ok o' =>
    simp only [Cls.fits] at h1
    cases h2 : (demoCls false).fit (Obj.new 0 0) 2 with
    | error e => rw [h2] at h1; cases h1
    | ok o1 =>
      rw [h2] at h1
      simp only at h1
      cases h3 : (demoCls false).fit o1 1 with
      | error e => rw [h3] at h1; cases h1
      | ok o2 =>
        rw [h3] at h1
        simp only [Except.ok.injEq] at h1
        have hg : o1.gen = 12 := by
          have e : (((demoCls false).fit (Obj.new 0 0) 2).toOption.map Obj.gen) = some 12 := by
            decide +kernel
          rw [h2] at e
          simpa [Except.toOption] using e
        obtain ⟨o'', h4, h5⟩ := C19_attributes_partial (demoCls false) o1 o2 1 rfl (.inl rfl)
          (fun _ _ _ _ => rfl) h3 7
        rw [hg] at h4
        exact ⟨o', o'', rfl, h4, h1 ▸ h5⟩

/-! ### C20 -/

/-- **C20** for classes without a kept grid (`UoI_Lasso`): after every history, the grid is that of
    the last data set. -/
theorem C20_lasso_partial [LinearOrder K] [Field K] (c : Cls D K G S M RP) (hc : c.caches = false)
    (ds : List D) (d : D) (hy : c.constY d = false) (o o' : Obj K G S RP)
    (h : c.fits o (ds ++ [d]) = .ok o') : o'.regParams = some (c.grid d) := by
  induction ds generalizing o with
  | nil =>
    simp only [List.nil_append, Cls.fits] at h
    cases h1 : c.fit o d with
    | error e => rw [h1] at h; cases h
    | ok o1 =>
      rw [h1] at h
      simp only [Except.ok.injEq] at h
      subst h
      rw [(fit_regParams hy h1).1]
      simp [Cls.getRegParams, hc]
  | cons d0 ds ih =>
    simp only [List.cons_append, Cls.fits] at h
    cases h1 : c.fit o d0 with
    | error e => rw [h1] at h; cases h
    | ok o1 => rw [h1] at h; exact ih o1 h

/-- **C20** for the first fit of any class. -/
theorem C20_first_fit_partial [LinearOrder K] [Field K] (c : Cls D K G S M RP) (d : D)
    (hy : c.constY d = false) (g : G) (s : S) (o' : Obj K G S RP)
    (h : c.fit (Obj.new g s) d = .ok o') : o'.regParams = some (c.grid d) := by
  rw [(fit_regParams hy h).1]
  simp only [Obj.new, Cls.getRegParams]
  split <;> rfl

/-- **C20** is false for the elastic-net, logistic and Poisson estimators: after a first fit on `d1`,
    every later fit uses the grid of `d1`, whatever its data. -/
theorem C20_negation [LinearOrder K] [Field K] (c : Cls D K G S M RP) (hc : c.caches = true)
    (d1 : D) (ds : List D) (d : D) (hy1 : c.constY d1 = false) (hy : c.constY d = false) (g : G)
    (s : S) (o' : Obj K G S RP) (h : c.fits (Obj.new g s) (d1 :: (ds ++ [d])) = .ok o') :
    o'.regParams = some (c.grid d1) := by
  simp only [Cls.fits] at h
  cases h1 : c.fit (Obj.new g s) d1 with
  | error e => rw [h1] at h; cases h
  | ok o1 =>
    rw [h1] at h
    simp only at h
    have hc1 : o1.cache = some (c.grid d1) := by
      rw [(fit_regParams hy1 h1).2]; simp [Cls.getRegParams, hc, Obj.new]
    clear h1
    induction ds generalizing o1 with
    | nil =>
      simp only [List.nil_append, Cls.fits] at h
      cases h2 : c.fit o1 d with
      | error e => rw [h2] at h; cases h
      | ok o2 =>
        rw [h2] at h
        simp only [Except.ok.injEq] at h
        subst h
        rw [(fit_regParams hy h2).1]
        simp [Cls.getRegParams, hc, hc1]
    | cons d0 ds ih =>
      simp only [List.cons_append, Cls.fits] at h
      cases h2 : c.fit o1 d0 with
      | error e => rw [h2] at h; cases h
      | ok o2 =>
        rw [h2] at h
        exact ih o2 h (fits_cache hc [d0] hc1 (by simp [Cls.fits, h2]))

/-- Data sets 2 and 1 have different grids; refitting on data set 1 uses `[2, 1]`. -/
example : ∃ o' : Obj ℚ Nat ℚ ℚ, (demoCls true).fits (Obj.new 0 0) [2, 1] = .ok o' ∧
    o'.regParams = some [2, 1] ∧ (demoCls true).grid 1 = [1, 1 / 2] := by
  have h : ((demoCls true).fits (Obj.new 0 0) [2, 1]).toOption.isSome := by decide +kernel
  cases h1 : (demoCls true).fits (Obj.new 0 0) [2, 1] with
  | error e => rw [h1] at h; exact absurd h (by simp [Except.toOption])
  | ok o' =>
    refine ⟨o', rfl, ?_, by decide +kernel⟩
    rw [C20_negation (demoCls true) rfl 2 [] 1 rfl rfl 0 0 o' h1]
    decide +kernel

example : ∃ o' : Obj ℚ Nat ℚ ℚ, (demoCls false).fits (Obj.new 0 0) [2, 1] = .ok o' ∧
    o'.regParams = some [1, 1 / 2] := by
  have h : ((demoCls false).fits (Obj.new 0 0) [2, 1]).toOption.isSome := by decide +kernel
  cases h1 : (demoCls false).fits (Obj.new 0 0) [2, 1] with
  | error e => rw [h1] at h; exact absurd h (by simp [Except.toOption])
  | ok o' =>
    refine ⟨o', rfl, ?_⟩
    rw [C20_lasso_partial (demoCls false) rfl [2] 1 rfl _ o' h1]
    decide +kernel

/-- **C20** is false for the grids themselves: for any first data set, the second call of
    `get_reg_params` of the elastic-net and Poisson estimators returns the first grid for every
    data set. -/
theorem C20_negation_grids {n p n' p' : Nat} (X : Fin n → Fin (p + 1) → ℝ) (y : Fin n → ℝ)
    (X' : Fin n' → Fin (p' + 1) → ℝ) (y' : Fin n' → ℝ) (alphas : List ℝ) (fi : Bool) (eps : ℝ)
    (num : Nat) :
    (∀ regs cache, Grid.enGrid X y alphas fi eps num none = .ok (regs, cache) →
      Grid.enGrid X' y' alphas fi eps num cache = .ok (regs, cache)) ∧
    (Grid.poisGrid X' y' alphas eps num (Grid.poisGrid X y alphas eps num none).2).1 =
      (Grid.poisGrid X y alphas eps num none).1 := by
  refine ⟨?_, rfl⟩
  intro regs cache h
  simp only [Grid.enGrid] at h
  split at h
  · cases h
  · injection h with h
    injection h with h1 h2
    subst h1 h2
    rfl

/-- Doubling the feature doubles the critical penalty (1 to 2), but the refitted grid stays. -/
example : (Grid.poisGrid (fun i : Fin 2 => fun _ : Fin 1 => if i = 0 then (2 : ℝ) else -2) ![3, 1]
      [1] (1/10) 5 (Grid.poisGrid (fun i : Fin 2 => fun _ : Fin 1 => if i = 0 then (1 : ℝ) else -1)
        ![3, 1] [1] (1/10) 5 none).2).1 =
      (Grid.poisGrid (fun i : Fin 2 => fun _ : Fin 1 => if i = 0 then (1 : ℝ) else -1) ![3, 1] [1]
        (1/10) 5 none).1 :=
  (C20_negation_grids _ _ _ _ [1] true (1/10) 5).2

/-! ### C21 -/

/-- **C21** for a Python integer (or a generator): the whole fit is the fit driven by the one stream
    seeded with that integer; every split is a successive draw of it. -/
theorem C21_python_int_partial [LinearOrder K] [Field K] (seed : Nat → G) (env : Env K G S M RP)
    (k : Nat) (s : S) :
    Fit.fit (withSeeds seed env) 1 0 (store seed 0 (.pyInt k)) s = Fit.fit env 1 0 (seed k) s := by
  unfold Fit.fit
  simp only [store, Nat.add_zero, drawBoots_serial, drawList_withSeeds, selection_withSeeds,
    estimation_withSeeds]
  change (Prog.lift ((drawList env false env.nBootsSel (seed k)).map _) >>= _) = _
  cases drawList env false env.nBootsSel (seed k) with
  | error e => rfl
  | ok p =>
    change (selection env 1 0 p.1 s >>= _) = (selection env 1 0 p.1 s >>= _)
    congr 1
    funext B
    congr 1
    funext nSup
    simp only [drawList_withSeeds]
    change (Prog.lift ((drawList env true env.nBootsEst p.2).map _) >>= _) = _
    cases drawList env true env.nBootsEst p.2 with
    | error e => rfl
    | ok q => rfl

/-- **C21** in a parallel run: with a Python integer every process has a generator of its own, and
    process 0 has that of a serial run. -/
theorem C21_ranks_partial (seed : Nat → G) (hseed : Function.Injective seed) (k : Nat) :
    store seed 0 (.pyInt k) = .generator (seed k) ∧
    ∀ rank rank', rank ≠ rank' → store seed rank (.pyInt k) ≠ store seed rank' (.pyInt k) := by
  refine ⟨rfl, fun rank rank' hne h => hne ?_⟩
  simp only [store, Stored.generator.injEq] at h
  have := hseed h
  omega

example : store id 0 (.pyInt 5) = .generator 5 ∧ store id 2 (.pyInt 5) ≠ store id 3 (.pyInt 5) :=
  ⟨(C21_ranks_partial id Function.injective_id 5).1,
    (C21_ranks_partial id Function.injective_id 5).2 2 3 (by decide)⟩

/-- **C21** is false for NumPy integers: all splits of a phase are the same split. -/
theorem C21_negation (seed : Nat → G) (env : Env K G S M RP) (est : Bool) (rank k : Nat)
    (sps : List Split) (g : Stored G)
    (h : Draws (withSeeds seed env) est (store seed rank (.npInt k)) sps g) :
    ∀ sp ∈ sps, ∀ sp' ∈ sps, sp = sp' := by
  have key : ∀ sps (g0 g : Stored G), g0 = .number k → Draws (withSeeds seed env) est g0 sps g →
      ∀ sp ∈ sps, ∃ g', env.draw est (seed k) = .ok (sp, g') := by
    intro sps g0 g hg0 h
    induction h with
    | nil => simp
    | @cons g1 g2 g3 sp sps h1 _ ih =>
      subst hg0
      have hd : (match env.draw est (seed k) with
          | .error e => (.error e : Except PyErr (Split × Stored G))
          | .ok (sp, _) => .ok (sp, .number k)) = .ok (sp, g2) := h1
      cases he : env.draw est (seed k) with
      | error e => rw [he] at hd; cases hd
      | ok p =>
        rw [he] at hd
        simp only [Except.ok.injEq, Prod.mk.injEq] at hd
        intro sp' hsp'
        rcases List.mem_cons.1 hsp' with rfl | hsp'
        · exact ⟨p.2, by rw [← hd.1]⟩
        · obtain ⟨g', hg'⟩ := ih hd.2.symm sp' hsp'
          rw [he] at hg'
          exact ⟨g', hg'⟩
  intro sp hsp sp' hsp'
  obtain ⟨g1, h1⟩ := key sps _ g rfl h sp hsp
  obtain ⟨g2, h2⟩ := key sps _ g rfl h sp' hsp'
  rw [h1] at h2
  injection h2 with h2
  exact congrArg Prod.fst h2

/-- With a Python integer the two selection splits of the example differ; with a NumPy integer they
    are the same. -/
example : drawList (withSeeds id demo) false 2 (store id 0 (.pyInt 5)) =
      .ok ([⟨[5, 6], [7]⟩, ⟨[8, 9], [10]⟩], .generator 11) ∧
    drawList (withSeeds id demo) false 2 (store id 0 (.npInt 5)) =
      .ok ([⟨[5, 6], [7]⟩, ⟨[5, 6], [7]⟩], .number 5) := ⟨rfl, rfl⟩

end Verif.Estimator
