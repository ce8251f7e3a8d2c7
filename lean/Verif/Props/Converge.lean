import Verif.Lemmas.Converge
import Mathlib.Analysis.Real.Sqrt
import Mathlib.Tactic.NormNum
/-!
Convergence of the minimiser on strongly convex, smooth objectives (C116, C117).
-/
namespace Verif.Lbfgs
open Finset Spec

variable {n : Nat} {σ K : Type} [Field K] [LinearOrder K] [IsStrictOrderedRing K]

/-! ### C116 -/

/-- C116.  On a strongly convex, smooth objective that is bounded below by `B`, a line search with a curvature
    condition (More-Thuente with `gtol < 1`, 'wolfe' or 'strongwolfe') makes at most
    `(F(x0) - B) / (ftol * t * l * epsilon²)` iterations, with constants `t` and `l` of the objective and of
    the memory size, whatever the limit on the iterations. -/
theorem C116_bound (env : Env n σ K) (hsq : IsSqrt env.sqrt) (mu L B : K)
    (hG : StrongSmooth (fun x => (env.eval x).2) mu L) (hB : ∀ x, B ≤ (env.eval x).1)
    (p : Par K) (hc : p.c = 0) (hm : 1 ≤ p.m) (he : 0 < p.epsilon) (hls : p.linesearch ≠ 1)
    (hgt : p.linesearch = 0 → p.gtol < 1) (cv : K) (hcv : cv = if p.linesearch = 0 then p.gtol else p.wolfe)
    (x0 : Fin n → K) (cb : σ) (o : Out n K) (h : Lbfgs env p x0 cb o) :
    (o.reports.length : K) * (p.ftol * reachStep cv mu L p.m.toNat * descent mu L p.m.toNat * p.epsilon ^ 2) ≤
      (env.eval x0).1 - B := by
  have hx := hB x0
  cases h with
  | rejected => simp; exact hx
  | already => simp; exact hx
  | run hck ha hr =>
    have hcv' : cv = curvature p := hcv
    have ok := ok_of_check hck
    have hf0 : 0 ≤ p.ftol := by have := ok.ftol; rwa [fillEnd_eq] at this
    have := run_count hc 0 (fun s hs _ h0 => decrease_curvature hsq hG hc hm hls hgt he hs h0)
      (mul_nonneg (mul_nonneg (mul_nonneg hf0
        (reachStep_pos (curvature_lt hck hls hc hgt) hG.L_pos _).le)
        (descent_pos hG.mu_pos hG.L_pos _).le) (sq_nonneg _)) hB hr (.start hck ha)
    rw [hcv']
    simpa using this

/-- C116.  So every such call ends, also without a limit on the iterations. -/
theorem C116_ends [Archimedean K] (env : Env n σ K) (hsq : IsSqrt env.sqrt) (mu L B : K)
    (hG : StrongSmooth (fun x => (env.eval x).2) mu L) (hB : ∀ x, B ≤ (env.eval x).1)
    (p : Par K) (hc : p.c = 0) (hm : 1 ≤ p.m) (he : 0 < p.epsilon) (hls : p.linesearch ≠ 1)
    (hgt : p.linesearch = 0 → p.gtol < 1) (hft : 0 < p.ftol) (x0 : Fin n → K) (cb : σ) :
    ∃ o, Lbfgs env p x0 cb o :=
  lbfgs_ends hc 0 (fun s hs _ h0 => decrease_curvature hsq hG hc hm hls hgt he hs h0)
    (fun hck => mul_pos (mul_pos (mul_pos hft
        (reachStep_pos (curvature_lt hck hls hc hgt) hG.L_pos _))
        (descent_pos hG.mu_pos hG.L_pos _)) (by positivity)) hB

/-- C116 for the search with sufficient decrease only ('armijo', `ftol < 1`), on a convex objective: the
    number of iterations after the first is bounded in the same way. -/
theorem C116_armijo (env : Env n σ K) (hsq : IsSqrt env.sqrt) (mu L B : K)
    (hG : StrongSmooth (fun x => (env.eval x).2) mu L)
    (hF : ConvexGrad (fun x => (env.eval x).1) (fun x => (env.eval x).2)) (hB : ∀ x, B ≤ (env.eval x).1)
    (p : Par K) (hc : p.c = 0) (hm : 1 ≤ p.m) (he : 0 < p.epsilon) (hls : p.linesearch = 1) (hf0 : 0 ≤ p.ftol)
    (hf1 : p.ftol < 1) (x0 : Fin n → K) (cb : σ) (o : Out n K) (h : Lbfgs env p x0 cb o) :
    ((o.reports.length : K) - 1) * (p.ftol * min 1 (reachStep p.ftol mu L p.m.toNat / 2) *
      descent mu L p.m.toNat * p.epsilon ^ 2) ≤ (env.eval x0).1 - B := by
  have hx := hB x0
  have hT := reachStep_pos (mu := mu) hf1 hG.L_pos p.m.toNat
  have hd := descent_pos hG.mu_pos hG.L_pos p.m.toNat
  have hmin : 0 ≤ min 1 (reachStep p.ftol mu L p.m.toNat / 2) := le_min zero_le_one (by linarith)
  have hnn : 0 ≤ p.ftol * min 1 (reachStep p.ftol mu L p.m.toNat / 2) *
      descent mu L p.m.toNat * p.epsilon ^ 2 := by positivity
  cases h with
  | rejected => simp only [List.length_nil, Nat.cast_zero]; nlinarith
  | already => simp only [List.length_nil, Nat.cast_zero]; nlinarith
  | run hck ha hr =>
    have := run_count hc 1 (fun s hs h1 h0 => decrease_armijo hsq hG hF hc hm hls hf1 he hs h1 h0)
      hnn hB hr (.start hck ha)
    simpa using this

/-- The objective `(x₀² + 2 x₁²) / 2` over the reals. -/
noncomputable def exBowl : Env 2 Unit ℝ :=
  ⟨Real.sqrt, fun x => ((x 0 ^ 2 + 2 * x 1 ^ 2) / 2, ![x 0, 2 * x 1]), fun s _ _ _ _ _ _ _ _ => (0, s)⟩

theorem exBowl_strong : StrongSmooth (fun x => (exBowl.eval x).2) 1 2 := by
  refine ⟨one_pos, two_pos, fun x y => ?_, fun x y => ?_⟩
  · simp only [dot, exBowl, Fin.sum_univ_two, Matrix.cons_val_zero, Matrix.cons_val_one]
    nlinarith [sq_nonneg (x 1 - y 1)]
  · simp only [dot, exBowl, Fin.sum_univ_two, Matrix.cons_val_zero, Matrix.cons_val_one]
    nlinarith [sq_nonneg (x 0 - y 0)]

theorem exBowl_convex : ConvexGrad (fun x => (exBowl.eval x).1) (fun x => (exBowl.eval x).2) := by
  intro x y
  simp only [dot, exBowl, Fin.sum_univ_two, Matrix.cons_val_zero, Matrix.cons_val_one]
  nlinarith [sq_nonneg (x 0 - y 0), sq_nonneg (x 1 - y 1)]

theorem exBowl_sqrt : IsSqrt exBowl.sqrt := fun v hv => ⟨Real.sqrt_nonneg v, Real.mul_self_sqrt hv⟩

theorem exBowl_bound (x : Fin 2 → ℝ) : 0 ≤ (exBowl.eval x).1 := by
  simp only [exBowl]; positivity

/-- With the default search and one pair, from `(3, 4)` without a limit: the call ends, after at most
    `2 * 10¹²` iterations (`ftol = 1/10000`, `gtol = 9/10`, `epsilon = 1/100`). -/
example : ∃ o, Lbfgs exBowl ⟨1, 1/100, 0, 0, 0, 0, 40, 0, 100, 1/10000, 9/10, 9/10, 0, 0, 0, -1⟩ ![3, 4] () o ∧
    o.reports.length ≤ 2 * 10 ^ 12 := by
  obtain ⟨o, ho⟩ := C116_ends exBowl exBowl_sqrt 1 2 0 exBowl_strong exBowl_bound
    ⟨1, 1/100, 0, 0, 0, 0, 40, 0, 100, 1/10000, 9/10, 9/10, 0, 0, 0, -1⟩ rfl le_rfl (by norm_num) (by decide)
    (fun _ => by norm_num) (by norm_num) ![3, 4] ()
  refine ⟨o, ho, ?_⟩
  have := C116_bound exBowl exBowl_sqrt 1 2 0 exBowl_strong exBowl_bound _ rfl le_rfl (by norm_num) (by decide)
    (fun _ => by norm_num) _ rfl ![3, 4] () o ho
  norm_num [exBowl, reachStep, descent, lower, upper] at this
  have h2 : (o.reports.length : ℝ) ≤ 2 * 10 ^ 12 := by
    linarith
  exact_mod_cast h2

/-- With the search 'armijo', from `(3, 4)` with at most 50 iterations: what the bound says there. -/
example : ∃ o, Lbfgs exBowl ⟨1, 1/100, 0, 0, 50, 1, 40, 0, 100, 1/10000, 9/10, 9/10, 0, 0, 0, -1⟩ ![3, 4] () o ∧
    (o.reports.length : ℝ) ≤ 1 + 4 * 10 ^ 11 := by
  obtain ⟨o, ho, _⟩ := C67_ends exBowl ⟨1, 1/100, 0, 0, 50, 1, 40, 0, 100, 1/10000, 9/10, 9/10, 0, 0, 0, -1⟩
    ![3, 4] () (by decide)
  refine ⟨o, ho, ?_⟩
  have := C116_armijo exBowl exBowl_sqrt 1 2 0 exBowl_strong exBowl_convex exBowl_bound _ rfl le_rfl (by norm_num)
    rfl (by norm_num) (by norm_num) ![3, 4] () o ho
  norm_num [exBowl, reachStep, descent, lower, upper] at this
  linarith

/-- C116.  A reported convergence locates the minimiser: the distance of the result to it is at most
    `epsilon * max(1, |x|) / mu`. -/
theorem C116_accuracy (env : Env n σ K) (hsq : IsSqrt env.sqrt) (mu L : K)
    (hG : StrongSmooth (fun x => (env.eval x).2) mu L) (p : Par K) (hc : p.c = 0) (x0 : Fin n → K) (cb : σ)
    (o : Out n K) (h : Lbfgs env p x0 cb o) (hr : o.ret = 0 ∨ (o.ret = 2 ∧ o.reports = [])) (z : Fin n → K)
    (hz : ∀ i, (env.eval z).2 i = 0) :
    mu ^ 2 * dot (fun i => o.x i - z i) (fun i => o.x i - z i) ≤ p.epsilon ^ 2 * max 1 (dot o.x o.x) := by
  have h1 := C84_criterion env hsq p x0 cb o h hr _ rfl
  simp only [if_pos hc] at h1
  exact (strong_distance hG o.x z hz).trans h1

/-- A run that ends so, over the reals: from a point close to the minimiser. -/
example : Lbfgs exBowl ⟨1, 1/100, 0, 0, 0, 1, 40, 0, 100, 1/10000, 9/10, 9/10, 0, 0, 0, -1⟩ ![1/200, 0] ()
      ⟨2, ![1/200, 0], [![1/200, 0]], []⟩ ∧ ∀ i, (exBowl.eval ![0, 0]).2 i = 0 := by
  refine ⟨.already ((C71_accepted_partial _).2 fun e he => ?_) ?_, fun i => by fin_cases i <;> simp [exBowl]⟩
  · cases he <;> norm_num at *
  · have hd : ∀ v : Fin 2 → ℝ, v = ![1/200, 0] → vec2norm Real.sqrt v = 1/200 := by
      rintro _ rfl
      unfold vec2norm
      rw [vecdot_eq, Real.sqrt_eq_iff_mul_self_eq (dot_nonneg _) (by norm_num)]
      norm_num [dot, Fin.sum_univ_two]
    unfold already
    have hg : effGrad (fillEnd 2 (⟨1, 1/100, 0, 0, 0, 1, 40, 0, 100, 1/10000, 9/10, 9/10, 0, 0, 0, -1⟩ : Par ℝ))
        (start exBowl (fillEnd 2 ⟨1, 1/100, 0, 0, 0, 1, 40, 0, 100, 1/10000, 9/10, 9/10, 0, 0, 0, -1⟩) ![1/200, 0] ()).g
        (start exBowl (fillEnd 2 ⟨1, 1/100, 0, 0, 0, 1, 40, 0, 100, 1/10000, 9/10, 9/10, 0, 0, 0, -1⟩) ![1/200, 0] ()).pg =
        ![1/200, 0] := by
      unfold effGrad
      rw [if_pos (by rw [fillEnd_eq]; exact feq_iff.2 rfl)]
      show ![_, _] = _
      simp
    rw [hg]
    show converged _ (vec2norm Real.sqrt ![1/200, 0]) (vec2norm Real.sqrt ![1/200, 0])
    rw [hd _ rfl, fillEnd_eq]
    unfold converged
    norm_num

/-! ### C117 -/

/-- C117.  On a strongly convex, smooth objective the search 'armijo' never fails, if it may make enough
    trials and steps in the range it needs are allowed: with a progress callable that never stops the run
    the only results are convergence, the delta-based stop and the limit on the iterations. -/
theorem C117_codes (env : Env n σ K) (hsq : IsSqrt env.sqrt) (mu L : K)
    (hG : StrongSmooth (fun x => (env.eval x).2) mu L)
    (hF : ConvexGrad (fun x => (env.eval x).1) (fun x => (env.eval x).2))
    (hpr : ∀ cb x g a b c d k l, (env.progress cb x g a b c d k l).1 = 0)
    (p : Par K) (hck : ∀ e, ¬ Violates n p e) (hc : p.c = 0) (hm : 1 ≤ p.m) (he : 0 < p.epsilon)
    (hls : p.linesearch = 1) (hf1 : p.ftol < 1) (T : K) (hT : T = reachStep p.ftol mu L p.m.toNat)
    (hmin : p.minStep ≤ T) (hmax : max 1 (1 / p.epsilon) ≤ p.maxStep)
    (hml : max 1 (1 / p.epsilon) ≤ T * 2 ^ (p.maxLinesearch.toNat - 1))
    (x0 : Fin n → K) (cb : σ) (o : Out n K) (h : Lbfgs env p x0 cb o) :
    o.ret = 0 ∨ (o.ret = 2 ∧ o.reports = []) ∨ (o.ret = 1 ∧ 0 < p.past) ∨
      (o.ret = -997 ∧ p.maxIterations ≠ 0) := by
  subst hT
  have hck := (C71_accepted_partial p).2 hck
  cases h with
  | rejected h => rw [hck] at h; cases h
  | already => exact .inr (.inl ⟨rfl, rfl⟩)
  | run _ ha hr =>
    rcases codes_of_search hpr (fun s hs => (armijo_search hsq hG hF hc hm hls hf1 he hs).2 hmin hmax hml)
      hr (.start hck ha) with h | h | h
    · exact .inl h
    · exact .inr (.inr (.inl h))
    · exact .inr (.inr (.inr h))

/-- C117.  So `fmin_lbfgs` with 'armijo', without the delta-based stop and without a limit on the iterations,
    always returns, without a warning, a point at which the gradient is at most `epsilon * max(1, |x|)`
    and whose distance to the minimiser is at most `epsilon * max(1, |x|) / mu`. -/
theorem C117_fmin [Archimedean K] (c : Callables n σ K) (hsq : IsSqrt c.sqrt) (F : (Fin n → K) → K)
    (G : (Fin n → K) → Fin n → K) (hf : ∀ x, c.f x = (.ok (F x), G x))
    (hpr : ∀ cb x g f xn gn st k ls, (c.progress cb x g f xn gn st k ls).1 = .ok none ∨
      (c.progress cb x g f xn gn st k ls).1 = .ok (some 0))
    (mu L B : K) (hG : StrongSmooth G mu L) (hF : ConvexGrad F G) (hB : ∀ x, B ≤ F x)
    (a : Args K) (hls : a.lineSearch = "armijo") (hck : ∀ e, ¬ Violates n { a.par with linesearch := 1 } e)
    (hc : a.par.c = 0) (hm : 1 ≤ a.par.m) (he : 0 < a.par.epsilon) (hpast : a.par.past = 0)
    (hit : a.par.maxIterations = 0) (hf0 : 0 < a.par.ftol) (hf1 : a.par.ftol < 1)
    (T : K) (hT : T = reachStep a.par.ftol mu L a.par.m.toNat)
    (hmin : a.par.minStep ≤ T) (hmax : max 1 (1 / a.par.epsilon) ≤ a.par.maxStep)
    (hml : max 1 (1 / a.par.epsilon) ≤ T * 2 ^ (a.par.maxLinesearch.toNat - 1)) (x0 : Fin n → K) (cb : σ) :
    (∃ res tr, Fmin c a x0 cb res tr) ∧
    ∀ res tr, Fmin c a x0 cb res tr → ∃ x, res = .returned x none ∧
      dot (G x) (G x) ≤ a.par.epsilon ^ 2 * max 1 (dot x x) ∧
      ∀ z, (∀ i, G z i = 0) → mu ^ 2 * dot (fun i => x i - z i) (fun i => x i - z i) ≤
        a.par.epsilon ^ 2 * max 1 (dot x x) := by
  have e1 : (fun x => (c.env.eval x).1) = F := by funext x; simp only [Callables.env]; rw [hf]
  have e2 : (fun x => (c.env.eval x).2) = G := by funext x; simp only [Callables.env]; rw [hf]
  have hG' : StrongSmooth (fun x => (c.env.eval x).2) mu L := by rw [e2]; exact hG
  have hF' : ConvexGrad (fun x => (c.env.eval x).1) (fun x => (c.env.eval x).2) := by rw [e1, e2]; exact hF
  have hB' : ∀ x, B ≤ (c.env.eval x).1 := fun x => by rw [congrFun e1 x]; exact hB x
  have hp' : ∀ cb x g a b d e k l, (c.env.progress cb x g a b d e k l).1 = 0 := by
    intro cb x g a b d e k l
    simp only [Callables.env]
    rcases hpr cb x g a b d e k l with h | h <;> rw [h]
  have hpar : fminPar a = .ok { a.par with linesearch := 1 } := by
    unfold fminPar chooseSearch
    rw [if_neg (by rw [hc]; simp), if_neg (by rw [hc]; simp), if_neg (by rw [hc]; simp), hls]
    rfl
  have hTp := reachStep_pos (mu := mu) hf1 hG.L_pos a.par.m.toNat
  have hdp := descent_pos hG.mu_pos hG.L_pos a.par.m.toNat
  obtain ⟨o, ho⟩ : ∃ o, Lbfgs c.env { a.par with linesearch := 1 } x0 cb o :=
    lbfgs_ends (p := { a.par with linesearch := 1 }) hc 1
      (fun s hs h1 h0 => decrease_armijo (p := { a.par with linesearch := 1 }) hsq hG' hF' hc hm rfl hf1 he hs h1 h0)
      (fun _ => mul_pos (mul_pos (mul_pos hf0 (lt_min one_pos (by
        show 0 < reachStep a.par.ftol mu L a.par.m.toNat / 2
        linarith))) hdp) (pow_pos he 2)) hB'
  refine ⟨⟨_, _, .run hpar ho⟩, fun res tr h => ?_⟩
  cases h with
  | bad h => rw [hpar] at h; cases h
  | @run p o h ho =>
    rw [hpar] at h
    cases h
    have hcode : o.ret = 0 ∨ (o.ret = 2 ∧ o.reports = []) := by
      rcases C117_codes c.env hsq mu L hG' hF' hp' _ hck hc hm he rfl hf1 T hT hmin hmax hml x0 cb o ho with
        h | h | ⟨_, h⟩ | ⟨_, h⟩
      · exact .inl h
      · exact .inr h
      · exact absurd hpast h.ne'
      · exact absurd hit h
    refine ⟨o.x, ?_, ?_, fun z hz => ?_⟩
    · unfold finish
      rw [if_pos]
      rcases hcode with h | ⟨h, _⟩ <;> rw [h] <;> decide +kernel
    · have := C84_criterion c.env hsq _ x0 cb o ho hcode _ rfl
      simp only [if_pos hc] at this
      rw [← e2]
      exact this
    · exact C116_accuracy c.env hsq mu L hG' { a.par with linesearch := 1 } hc x0 cb o ho hcode z (fun i => by
        rw [← e2] at hz; exact hz i)

/-- The conditions are met by `exBowl` with the default parameters except for `max_linesearch`. -/
example (x0 : Fin 2 → ℝ) : ∃ x tr, Fmin (⟨Real.sqrt, fun x => (.ok ((x 0 ^ 2 + 2 * x 1 ^ 2) / 2), ![x 0, 2 * x 1]),
      fun s _ _ _ _ _ _ _ _ => (.ok none, s)⟩ : Callables 2 Unit ℝ)
    ⟨⟨10, 1/100000, 0, 0, 0, 0, 60, 1/10^20, 10^20, 1/10000, 9/10, 9/10, 1/10^30, 0, 0, -1⟩, "armijo"⟩
      x0 () (.returned x none) tr ∧
    dot x x ≤ (1/100000) ^ 2 * max 1 (dot x x) := by
  obtain ⟨⟨res, tr, h⟩, h2⟩ := C117_fmin
    (⟨Real.sqrt, fun x => (.ok ((x 0 ^ 2 + 2 * x 1 ^ 2) / 2), ![x 0, 2 * x 1]),
      fun s _ _ _ _ _ _ _ _ => (.ok none, s)⟩ : Callables 2 Unit ℝ) exBowl_sqrt
    _ _ (fun _ => rfl) (fun _ _ _ _ _ _ _ _ _ => .inl rfl) 1 2 0 exBowl_strong exBowl_convex exBowl_bound
    ⟨⟨10, 1/100000, 0, 0, 0, 0, 60, 1/10^20, 10^20, 1/10000, 9/10, 9/10, 1/10^30, 0, 0, -1⟩, "armijo"⟩ rfl
    (fun e he => by cases he <;> norm_num at *) rfl (by decide) (by norm_num) rfl rfl (by norm_num) (by norm_num) _ rfl
    (by norm_num [reachStep, upper, show Int.toNat 10 = 10 from rfl]) (by norm_num)
    (by norm_num [reachStep, upper, show Int.toNat 60 = 60 from rfl, show Int.toNat 10 = 10 from rfl]) x0 ()
  obtain ⟨x, rfl, _, hx⟩ := h2 _ _ h
  refine ⟨x, tr, h, ?_⟩
  have := hx ![0, 0] (fun i => by fin_cases i <;> simp)
  simpa [dot] using this

end Verif.Lbfgs
