import Mathlib.Data.Rat.Sqrt
import Mathlib.Data.Real.Sqrt
import Mathlib.Algebra.Order.BigOperators.Ring.Finset
import Verif.Lemmas.LbfgsLoop
import Verif.Props.LbfgsPy
import Verif.Py.Float
/-!
The main loop of the minimiser (C66, C67, C84, C86).
-/
namespace Verif.Lbfgs
open Finset Spec

variable {n : Nat} {σ K : Type} [Field K] [LinearOrder K] [IsStrictOrderedRing K]

/-! ### C66 -/

/-- C66 (under conditions).  Without penalty, or with all variables penalised, or for convex objectives
    (`ftol < 1`), no run returns a worse point than the start or any point reported on the way, whatever
    the code. -/
theorem C66_partial (env : Env n σ K) (p : Par K) (x0 : Fin n → K) (cb : σ) (o : Out n K)
    (h : Lbfgs env p x0 cb o) (stop : Int) (hs : stop = if p.stop < 0 then (n : Int) else p.stop)
    (hm : p.c = 0 ∨ (∀ i : Fin n, Penalised p.start stop i) ∨
      (ConvexGrad (fun x => (env.eval x).1) (fun x => (env.eval x).2) ∧ p.ftol < 1)) :
    let J := penalised (fun x => (env.eval x).1) p.c p.start stop
    J o.x ≤ J x0 ∧ ∀ q ∈ o.reports, J o.x ≤ J q.x ∧ J q.x ≤ J x0 := by
  intro J
  rcases final_of_lbfgs h with ⟨code, _, rfl⟩ | ⟨_, hf⟩
  · exact ⟨le_refl _, fun q hq => by cases hq⟩
  have hmono := hf.hist.mono (by rw [fillEnd_eq]; subst hs; exact hm)
  have hval := hist_value hf.hist
  have hJ : obj env (fillEnd n p) = J := by
    funext x
    unfold obj
    rw [fillEnd_eq]
    subst hs
    rfl
  rw [hJ] at hmono hval
  have hgood : ∀ q ∈ o.reports, q.fx = J q.x := fun q hq => by
    rw [← hJ]; exact (hf.hist.good q hq).1
  have hhead : ∀ b ∈ o.reports.map (·.fx) ++ [J x0], J o.x ≤ b := by
    rcases hl : o.reports.map (·.fx) ++ [J x0] with _ | ⟨a, l⟩
    · rw [hl] at hval; cases hval
    · rw [hl] at hval hmono
      have ha : a = J o.x := Option.some.inj hval
      intro b hb
      rcases List.mem_cons.1 hb with rfl | hb
      · exact ha.ge
      · exact ha ▸ (List.pairwise_cons.1 hmono).1 b hb
  refine ⟨hhead _ (by simp), fun q hq => ⟨?_, ?_⟩⟩
  · rw [← hgood q hq]
    exact hhead _ (List.mem_append_left _ (List.mem_map_of_mem hq))
  · rw [← hgood q hq]
    exact (List.pairwise_append.1 hmono).2.2 _ (List.mem_map_of_mem hq) _ (List.mem_singleton.2 rfl)

/-- C66.  In every case the result is the last accepted point: the one last reported, or the start; and
    the objective was evaluated there (unless the parameters were rejected). -/
theorem C66_last (env : Env n σ K) (p : Par K) (x0 : Fin n → K) (cb : σ) (o : Out n K)
    (h : Lbfgs env p x0 cb o) :
    o.x = (o.reports.map (·.x)).headD x0 ∧ (o.trials ≠ [] → o.x ∈ o.trials) := by
  rcases final_of_lbfgs h with ⟨code, _, rfl⟩ | ⟨_, hf⟩
  · exact ⟨rfl, fun h => absurd rfl h⟩
  · exact ⟨hf.hist.pt, fun h => hf.last.resolve_left h⟩

/-- The same for `fmin_lbfgs` with callables that do not raise: a returned array, with or without
    warning, is not worse than the start. -/
theorem C66_fmin_partial (c : Callables n σ K) (F : (Fin n → K) → K) (G : (Fin n → K) → Fin n → K)
    (hF : ∀ x, c.f x = (.ok (F x), G x)) (a : Args K) (x0 x : Fin n → K) (cb : σ) (w : Option String)
    (tr : List (Fin n → K)) (h : Fmin c a x0 cb (.returned x w) tr) (stop : Int)
    (hs : stop = if a.par.stop < 0 then (n : Int) else a.par.stop)
    (hm : a.par.c = 0 ∨ (∀ i : Fin n, Penalised a.par.start stop i) ∨
      (ConvexGrad F G ∧ a.par.ftol < 1)) :
    penalised F a.par.c a.par.start stop x ≤ penalised F a.par.c a.par.start stop x0 := by
  have hF1 : ∀ x, c.env.eval x = (F x, G x) := fun x => by simp only [Callables.env]; rw [hF]
  generalize hres : Res.returned x w = res at h
  cases h with
  | bad => cases hres
  | @run p o hp hl =>
    have hx : x = o.x := by
      unfold finish at hres
      split_ifs at hres
      · exact (Res.returned.inj hres).1
      · rcases hmsg : message o.ret with _ | m
        · rw [hmsg] at hres; cases hres
        · rw [hmsg] at hres; exact (Res.returned.inj hres).1
      · rcases hmsg : message o.ret with _ | m
        · rw [hmsg] at hres; cases hres
        · rw [hmsg] at hres; cases hres
    have hpar : ∃ ls, p = { a.par with linesearch := ls } := by
      unfold fminPar at hp
      split_ifs at hp
      split at hp
      · cases hp
      · exact ⟨_, (Except.ok.inj hp).symm⟩
    obtain ⟨ls, rfl⟩ := hpar
    have := (C66_partial c.env _ x0 cb o hl stop hs (by
      simp only [hF1]
      exact hm)).1
    simp only [hF1] at this
    rw [hx]
    exact this

/-- `x² / 2 + |x|` from 8 in two iterations. -/
example : ∃ o, Lbfgs (exCall none).env
    { (exArgs 0 0).par with linesearch := 2, c := 1, maxIterations := 2 } (fun _ => 8) () o ∧
    (o.ret, o.x 0, o.reports.map (·.fx)) = (0, 0, [0, 63/2]) :=
  lbfgs_of_fuel _ _ _ _ _ 5 _ (by decide +kernel) (by decide +kernel) (by decide +kernel)

/-- The objective of the counterexample: it depends on the first coordinate only, which is not
    penalised. -/
def exBad : Env 2 Unit ℚ where
  sqrt := Rat.sqrt
  eval x := (- x 0 + 7/4 * x 0 ^ 2 + 1/2 * x 0 ^ 3 - 3/2 * x 0 ^ 4,
    ![-1 + 7/2 * x 0 + 3/2 * x 0 ^ 2 - 6 * x 0 ^ 3, 0])
  progress s _ _ _ _ _ _ _ _ := (0, s)

/-- Parameters for it: the second variable is penalised. -/
def exBadPar : Par ℚ := ⟨5, 0, 0, 0, 2, 2, 20, 0, 100, 1/4, 1/2, 9/10, 0, 1, 1, 2⟩

/-- C66 is false in general: with a variable that is not penalised, the second iteration goes uphill and
    the result is worse than the start. -/
theorem C66_negation : ∃ o, Lbfgs exBad exBadPar (fun _ => 0) () o ∧
    penalised (fun x => (exBad.eval x).1) 1 1 2 (fun _ => 0) <
      penalised (fun x => (exBad.eval x).1) 1 1 2 o.x := by
  obtain ⟨o, ho, hx⟩ := lbfgs_of_fuel (fun o => o.x) exBad exBadPar (fun _ => 0) () 5 ![-1, 0]
    (by decide +kernel) (by decide +kernel) (by decide +kernel)
  refine ⟨o, ho, ?_⟩
  rw [hx]
  unfold penalised l1
  decide +kernel

/-- C66 is false for floats: the backtracking search accepts a NaN value, here with the code for
    success. -/
theorem C66_nan : ∃ o : Out 1 Py.Flt, Lbfgs
    (⟨fun v => v, fun x => if x 0 = .fin 8 then (.fin 32, fun _ => .fin 1) else (.nan, fun _ => .fin 0),
      fun s _ _ _ _ _ _ _ _ => (0, s)⟩ : Env 1 Unit Py.Flt)
    ⟨5, .fin (1/100), 0, .fin 0, 0, 1, 20, .fin 0, .fin 100, .fin (1/4), .fin (1/2), .fin (9/10), .fin 0, .fin 0, 0, -1⟩
    (fun _ => .fin 8) () o ∧ o.ret = 0 ∧ o.x 0 = .fin 7 ∧ o.reports.map (·.fx) = [.nan] := by
  obtain ⟨o, ho, he⟩ := lbfgs_of_fuel (fun o => (o.ret, o.x 0, o.reports.map (·.fx)))
    (⟨fun v => v, fun x => if x 0 = .fin 8 then (.fin 32, fun _ => .fin 1) else (.nan, fun _ => .fin 0),
      fun s _ _ _ _ _ _ _ _ => (0, s)⟩ : Env 1 Unit Py.Flt)
    ⟨5, .fin (1/100), 0, .fin 0, 0, 1, 20, .fin 0, .fin 100, .fin (1/4), .fin (1/2), .fin (9/10), .fin 0, .fin 0, 0, -1⟩
    (fun _ => .fin 8) () 5 (0, .fin 7, [.nan]) (by decide +kernel) (by decide +kernel) (by decide +kernel)
  simp only [Prod.mk.injEq] at he
  exact ⟨o, ho, he.1, he.2.1, he.2.2⟩

/-! ### C67 -/

/-- C67.  With a positive `max_iterations` at most that many iterations are made, and at most
    `1 + max_iterations * max_linesearch` evaluations. -/
theorem C67_limits (env : Env n σ K) (p : Par K) (x0 : Fin n → K) (cb : σ) (o : Out n K)
    (h : Lbfgs env p x0 cb o) (hm : 0 < p.maxIterations) :
    (o.reports.length : Int) ≤ p.maxIterations ∧
      o.trials.length ≤ 1 + p.maxIterations.toNat * p.maxLinesearch.toNat := by
  rcases final_of_lbfgs h with ⟨code, _, rfl⟩ | ⟨_, hf⟩
  · exact ⟨hm.le, Nat.zero_le _⟩
  · have := hf.limit (by rw [fillEnd_eq]; exact hm)
    rw [fillEnd_eq] at this
    exact this

/-- C67.  With a limit on the iterations there is a result, for every objective; and never more than one. -/
theorem C67_ends (env : Env n σ K) (p : Par K) (x0 : Fin n → K) (cb : σ) (hm : p.maxIterations ≠ 0) :
    ∃! o, Lbfgs env p x0 cb o := by
  have hun : ∀ o o', Lbfgs env p x0 cb o → Lbfgs env p x0 cb o' → o' = o := by
    intro o o' h h'
    cases h with
    | rejected hc =>
      cases h' with
      | rejected hc' => rw [hc] at hc'; cases hc'; rfl
      | already hc' => rw [hc] at hc'; cases hc'
      | run hc' => rw [hc] at hc'; cases hc'
    | already hc ha =>
      cases h' with
      | rejected hc' => rw [hc] at hc'; cases hc'
      | already => rfl
      | run _ ha' => exact absurd ha ha'
    | run hc ha hr =>
      cases h' with
      | rejected hc' => rw [hc] at hc'; cases hc'
      | already _ ha' => exact absurd ha' ha
      | run _ _ hr' => exact run_unique hr' hr
  have hex : ∃ o, Lbfgs env p x0 cb o := by
    rcases hc : check n p with _ | code
    · by_cases ha : already env (fillEnd n p) (start env (fillEnd n p) x0 cb)
      · exact ⟨_, .already hc ha⟩
      · obtain ⟨o, ho⟩ := run_exists (ok_of_check hc) (by rw [fillEnd_eq]; exact hm)
          p.maxIterations.toNat _ (loop_start env (fillEnd n p) x0 cb)
          (by rw [fillEnd_eq]; show p.maxIterations ≤ _; omega)
        exact ⟨o, .run hc ha ho⟩
    · exact ⟨_, .rejected hc⟩
  obtain ⟨o, ho⟩ := hex
  exact ⟨o, ho, fun o' h => hun o o' ho h⟩

/-- Two iterations are made, and five evaluations are allowed for. -/
example : ∃ o, Lbfgs exBad exBadPar (fun _ => 0) () o ∧
    (o.ret, o.reports.map (·.k), o.trials.length) = (-997, [2, 1], 3) :=
  lbfgs_of_fuel _ _ _ _ _ 5 _ (by decide +kernel) (by decide +kernel) (by decide +kernel)

/-- C67 (the best point: see `C66_partial`, and `C67_negation`).  When the library reports the limit, exactly `max_iterations` iterations were made (one if the
    limit is negative), and `fmin_lbfgs` returns the last point with a warning. -/
theorem C67_warning_partial (env : Env n σ K) (p : Par K) (x0 : Fin n → K) (cb : σ) (o : Out n K)
    (h : Lbfgs env p x0 cb o) (hr : o.ret = -997)
    (hp : ∀ cb x g a b c d k l, (env.progress cb x g a b c d k l).1 ≠ -997) :
    (o.reports.length : Int) = max 1 p.maxIterations ∧ (o.reports.map (·.x)).head? = some o.x ∧
      finish o = .returned o.x (some "The algorithm routine reaches the maximum number of iterations.") := by
  have hfin : finish o = .returned o.x (some "The algorithm routine reaches the maximum number of iterations.") := by
    unfold finish
    rw [if_neg (by rw [hr]; decide +kernel), if_pos (by rw [hr]; decide +kernel), hr]
    rfl
  have hlast := (C66_last env p x0 cb o h).1
  have hlen : (o.reports.length : Int) = max 1 p.maxIterations := by
    cases h with
    | @rejected code hc =>
      have := violates_le (C71_code_partial p _ hc)
      change code = (-997 : Int) at hr
      omega
    | already => exact absurd hr (by show ALREADY_MINIMIZED ≠ -997; decide)
    | run hc _ hrun =>
      have := (run_limit (ok_of_check hc) (loop_start _ _ _ _) hrun hr hp).2
      rw [fillEnd_eq] at this
      exact this
  refine ⟨hlen, ?_, hfin⟩
  rcases hl : o.reports with _ | ⟨q, l⟩
  · rw [hl] at hlen
    simp at hlen
    omega
  · rw [hl] at hlast
    rw [hlast]
    rfl

/-- C67 is false as to the best point: a run ends at the limit in a point that is worse than the start and
    than the point of the iteration before. -/
theorem C67_negation : ∃ o, Lbfgs exBad exBadPar (fun _ => 0) () o ∧ o.ret = -997 ∧
    ∃ q ∈ o.reports, penalised (fun x => (exBad.eval x).1) 1 1 2 q.x <
      penalised (fun x => (exBad.eval x).1) 1 1 2 (fun _ => 0) ∧
      penalised (fun x => (exBad.eval x).1) 1 1 2 (fun _ => 0) <
      penalised (fun x => (exBad.eval x).1) 1 1 2 o.x := by
  obtain ⟨o, ho, hx⟩ := lbfgs_of_fuel (fun o => (o.ret, o.x, o.reports.map (·.x))) exBad exBadPar
    (fun _ => 0) () 5 (-997, ![-1, 0], [![-1, 0], ![1, 0]])
    (by decide +kernel) (by decide +kernel) (by decide +kernel)
  simp only [Prod.mk.injEq] at hx
  obtain ⟨h1, h2, h3⟩ := hx
  obtain ⟨q, hq, hqx⟩ := List.mem_map.1 (show ![1, 0] ∈ o.reports.map (·.x) by rw [h3]; simp)
  refine ⟨o, ho, h1, q, hq, ?_⟩
  rw [h2, hqx]
  unfold penalised l1
  decide +kernel

/-! ### C84 -/

/-- C84.  A reported convergence (also of the starting point) means that the gradient, or the
    pseudo-gradient of a penalised problem, at the result satisfies `|g| <= epsilon * max(1, |x|)`. -/
theorem C84_criterion (env : Env n σ K) (hsq : ∀ v, 0 ≤ v → 0 ≤ env.sqrt v ∧ env.sqrt v * env.sqrt v = v)
    (p : Par K) (x0 : Fin n → K) (cb : σ) (o : Out n K) (h : Lbfgs env p x0 cb o)
    (hr : o.ret = 0 ∨ (o.ret = 2 ∧ o.reports = [])) (stop : Int)
    (hs : stop = if p.stop < 0 then (n : Int) else p.stop) :
    let g := if p.c = 0 then (env.eval o.x).2 else pseudoGradient o.x (env.eval o.x).2 p.c p.start stop
    dot g g ≤ p.epsilon ^ 2 * max 1 (dot o.x o.x) := by
  subst hs
  cases h with
  | @rejected code hc =>
    have := violates_le (C71_code_partial p _ hc)
    rcases hr with hr | ⟨hr, _⟩
    · change code = (0 : Int) at hr; omega
    · change code = (2 : Int) at hr; omega
  | already hc ha =>
    have := converged_sq hsq (ok_of_check hc).eps (start_already ha)
    unfold slope at this
    rw [fillEnd_eq] at this
    exact this
  | run hc _ hrun =>
    have hret : o.ret = 0 := by
      rcases hr with hr | ⟨hr, hr'⟩
      · exact hr
      · exfalso
        have hne : ∀ {s : St n σ K} {o : Out n K}, Run env (fillEnd n p) s o → o.ret = 2 → o.reports ≠ [] := by
          intro s o h
          induction h with
          | next _ _ ih => exact ih
          | done h =>
            intro h2
            rcases iterate_inr h with ⟨h0, rfl⟩ | ⟨_, _, _, h1, _⟩
            · change (lineSearch _ _ _).ret = 2 at h2; omega
            · rw [h1]; exact List.cons_ne_nil _ _
        exact hne hrun hr hr'
    have := converged_sq hsq (ok_of_check hc).eps
      (run_success (ok_of_check hc) (loop_start _ _ _ _) hrun hret)
    unfold slope at this
    rw [fillEnd_eq] at this
    exact this

/-- C84.  For a convex objective a reported convergence bounds the distance to the optimum: no point has
    a value below that of the result by more than `epsilon * max(1, |x|)` times its distance. -/
theorem C84_gap (env : Env n σ ℝ) (hsq : env.sqrt = Real.sqrt) (p : Par ℝ) (x0 : Fin n → ℝ) (cb : σ)
    (o : Out n ℝ) (h : Lbfgs env p x0 cb o) (hr : o.ret = 0 ∨ (o.ret = 2 ∧ o.reports = [])) (stop : Int)
    (hs : stop = if p.stop < 0 then (n : Int) else p.stop)
    (hF : ConvexGrad (fun x => (env.eval x).1) (fun x => (env.eval x).2)) (y : Fin n → ℝ) :
    let J := penalised (fun x => (env.eval x).1) p.c p.start stop
    J o.x ≤ J y + p.epsilon * max 1 (Real.sqrt (∑ i, o.x i ^ 2)) * Real.sqrt (∑ i, (y i - o.x i) ^ 2) := by
  intro J
  have hcr := C84_criterion env (fun v hv => by rw [hsq]; exact ⟨Real.sqrt_nonneg v, Real.mul_self_sqrt hv⟩)
    p x0 cb o h hr stop hs
  have hck : check n p = none := by
    cases h with
    | @rejected code hc =>
      have := violates_le (C71_code_partial p _ hc)
      rcases hr with hr | ⟨hr, _⟩
      · change code = (0 : Int) at hr; omega
      · change code = (2 : Int) at hr; omega
    | already hc => exact hc
    | run hc => exact hc
  have hok := check_facts hck
  have heps : 0 ≤ p.epsilon := hok.1
  have hc0 : 0 ≤ p.c := hok.2.2.2.2.2.2.1
  set g : Fin n → ℝ := if p.c = 0 then (env.eval o.x).2 else
    pseudoGradient o.x (env.eval o.x).2 p.c p.start stop with hg
  have hsub : J o.x + dot (fun i => y i - o.x i) g ≤ J y := by
    by_cases hc : p.c = 0
    · rw [hg, if_pos hc]
      have := hF o.x y
      show (env.eval o.x).1 + p.c * _ + _ ≤ (env.eval y).1 + p.c * _
      rw [hc, zero_mul, zero_mul, add_zero, add_zero]
      refine le_trans (le_of_eq ?_) this
      congr 1
      exact sum_congr rfl fun i _ => mul_comm _ _
    · rw [hg, if_neg hc]
      exact pseudo_subgrad hF hc0 p.start stop o.x y
  have hcs : (dot (fun i => y i - o.x i) g) ^ 2 ≤ (∑ i, (y i - o.x i) ^ 2) * ∑ i, g i ^ 2 := by
    unfold dot
    exact sum_mul_sq_le_sq_mul_sq _ _ _
  have hgn : ∑ i, g i ^ 2 ≤ (p.epsilon * max 1 (Real.sqrt (∑ i, o.x i ^ 2))) ^ 2 := by
    have h1 : dot g g = ∑ i, g i ^ 2 := sum_congr rfl fun i _ => (sq _).symm
    have h2 : dot o.x o.x = ∑ i, o.x i ^ 2 := sum_congr rfl fun i _ => (sq _).symm
    rw [← h1, mul_pow]
    refine hcr.trans (le_of_eq ?_)
    rw [h2]
    congr 1
    rcases le_total (Real.sqrt (∑ i, o.x i ^ 2)) 1 with h3 | h3
    · rw [max_eq_left h3, max_eq_left (by simpa using (Real.sqrt_le_left one_pos.le).1 h3), one_pow]
    · rw [max_eq_right h3, max_eq_right ((Real.one_le_sqrt).1 h3), Real.sq_sqrt (sum_nonneg fun i _ => sq_nonneg _)]
  have hb : |dot (fun i => y i - o.x i) g| ≤
      p.epsilon * max 1 (Real.sqrt (∑ i, o.x i ^ 2)) * Real.sqrt (∑ i, (y i - o.x i) ^ 2) := by
    apply abs_le_of_sq_le_sq
    · rw [mul_pow, Real.sq_sqrt (sum_nonneg fun i _ => sq_nonneg _), mul_comm]
      exact hcs.trans (mul_le_mul_of_nonneg_left hgn (sum_nonneg fun i _ => sq_nonneg _))
    · positivity
  linarith [neg_abs_le (dot (fun i => y i - o.x i) g)]

/-- The hypotheses are met by the convex objective `x² / 2`: see also the run in the example above, which
    ends with code 0. -/
example : ConvexGrad (fun x : Fin 1 → ℝ => x 0 ^ 2 / 2) (fun x _ => x 0) := by
  intro x y
  simp only [dot, Fin.sum_univ_one]
  nlinarith [sq_nonneg (y 0 - x 0)]

/-- C84 for `fmin_lbfgs`, with callables that do not raise and a progress callable that does not return 2:
    an array returned without a warning satisfies the criterion. -/
theorem C84_fmin (c : Callables n σ K) (hsq : ∀ v, 0 ≤ v → 0 ≤ c.sqrt v ∧ c.sqrt v * c.sqrt v = v)
    (F : (Fin n → K) → K) (G : (Fin n → K) → Fin n → K) (hF : ∀ x, c.f x = (.ok (F x), G x))
    (hp : ∀ cb x g f xn gn st k ls, (c.progress cb x g f xn gn st k ls).1 ≠ .ok (some 2))
    (a : Args K) (x0 x : Fin n → K) (cb : σ) (tr : List (Fin n → K))
    (h : Fmin c a x0 cb (.returned x none) tr) (stop : Int)
    (hs : stop = if a.par.stop < 0 then (n : Int) else a.par.stop) :
    let g := if a.par.c = 0 then G x else pseudoGradient x (G x) a.par.c a.par.start stop
    dot g g ≤ a.par.epsilon ^ 2 * max 1 (dot x x) := by
  have hF1 : ∀ x, (c.env.eval x).2 = G x := fun x => by simp only [Callables.env]; rw [hF]
  obtain ⟨ls, o, _, hl, hx, hret⟩ := fmin_converged hp h
  have := C84_criterion c.env hsq _ x0 cb o hl hret stop hs
  simp only [hF1] at this
  rw [hx]
  exact this

/-- Such a call: `x² / 2` from 8 with the defaults returns 0. -/
example : ∃ tr, Fmin (exCall none) (exArgs 0 0) (fun _ => 8) () (.returned (fun _ => 0) none) tr := by
  obtain ⟨o, ho, hr⟩ := lbfgs_of_fuel (fun o => (o.ret, o.x)) (exCall none).env
    { (exArgs 0 0).par with linesearch := 1 } (fun _ => 8) () 20 (0, fun _ => 0)
    (by decide +kernel) (by decide +kernel) (by decide +kernel)
  simp only [Prod.mk.injEq] at hr
  have hf : finish o = .returned (fun _ => 0) none := by
    simp only [finish, hr]; rfl
  exact ⟨_, hf ▸ Fmin.run (p := { (exArgs 0 0).par with linesearch := 1 }) rfl ho⟩

/-! ### C86 -/

/-- C86.  The progress callable is called once per iteration, in order, with the point, its gradient, the
    value of the penalised objective there, the norms, and the number of evaluations of the iteration;
    these numbers add up to all evaluations except the first one, if the last search succeeded. -/
theorem C86_reports (env : Env n σ K) (p : Par K) (x0 : Fin n → K) (cb : σ) (o : Out n K)
    (h : Lbfgs env p x0 cb o) (stop : Int) (hs : stop = if p.stop < 0 then (n : Int) else p.stop) :
    o.reports.reverse.map (·.k) = List.range' 1 o.reports.length ∧
    (∀ q ∈ o.reports, q.fx = penalised (fun x => (env.eval x).1) p.c p.start stop q.x ∧
      q.g = (env.eval q.x).2 ∧ q.xnorm = env.sqrt (dot q.x q.x) ∧
      q.gnorm = env.sqrt (if p.c = 0 then dot q.g q.g else
        dot (pseudoGradient q.x q.g p.c p.start stop) (pseudoGradient q.x q.g p.c p.start stop)) ∧
      1 ≤ q.ls ∧ q.ls ≤ p.maxLinesearch) ∧
    (o.trials ≠ [] → (o.trials.length : Int) ≤ 1 + (o.reports.map (·.ls)).sum + p.maxLinesearch ∧
      (0 ≤ o.ret ∨ o.ret = -997 → (o.trials.length : Int) = 1 + (o.reports.map (·.ls)).sum)) := by
  subst hs
  rcases final_of_lbfgs h with ⟨code, _, rfl⟩ | ⟨_, hf⟩
  · exact ⟨rfl, (fun q hq => by cases hq), fun h => absurd rfl h⟩
  obtain ⟨hh, _, he, _, _⟩ := hf
  obtain ⟨_, hg, hls, hcount, _⟩ := hh
  refine ⟨?_, fun q hq => ?_, fun hne => ?_⟩
  · rw [List.map_reverse, hcount, List.reverse_reverse]
  · obtain ⟨h1, h2, h3, h4⟩ := hg q hq
    rw [fillEnd_eq] at h1 h4 hls
    obtain ⟨h5, h6⟩ := hls q hq
    refine ⟨h1, h2, ?_, ?_, h5, h6⟩
    · rw [h3]; unfold vec2norm; rw [vecdot_eq]
    · rw [h4]
      unfold vec2norm
      rw [vecdot_eq]
      split_ifs <;> rfl
  · rw [fillEnd_eq] at he
    exact ⟨he.1, fun h => (he.2 h).resolve_left hne⟩

example : ∃ o, Lbfgs exBad exBadPar (fun _ => 0) () o ∧
    (o.reports.map (·.fx), o.reports.map (·.gnorm), o.reports.map (·.ls), o.trials.length) =
      ([3/4, -1/4], [3, 2], [1, 1], 3) :=
  lbfgs_of_fuel _ _ _ _ _ 5 _ (by decide +kernel) (by decide +kernel) (by decide +kernel)

end Verif.Lbfgs
