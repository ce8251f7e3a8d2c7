import Verif.Lemmas.OwlqnStall
import Verif.Lemmas.OwlqnRange
import Verif.Props.Converge
/-!
Convergence of the minimiser with an L1 penalty (C136).
-/
namespace Verif.Lbfgs
open Finset Spec

variable {n : Nat} {σ K : Type} [Field K] [LinearOrder K] [IsStrictOrderedRing K]

/-! ### C136 -/

/-- C136 (that the call finds the minimiser fails: see `C136_negation`).  On a strongly convex, smooth objective
    that is bounded below by `B`, with an L1 penalty on all variables, the penalised objective decreases by at
    least `D = owlDecrease` in any `n + 1` iterations after the first, so that the number of iterations is at
    most `1 + n + (n + 1) (J(x0) - B) / D`, whatever the limit on the iterations. -/
theorem C136_bound_partial (env : Env n σ K) (hsq : IsSqrt env.sqrt) (mu L B : K)
    (hG : StrongSmooth (fun x => (env.eval x).2) mu L)
    (hF : ConvexGrad (fun x => (env.eval x).1) (fun x => (env.eval x).2)) (hB : ∀ x, B ≤ (env.eval x).1)
    (p : Par K) (hc : 0 < p.c) (stop : Int) (hs : stop = if p.stop < 0 then (n : Int) else p.stop)
    (hall : ∀ i : Fin n, Penalised p.start stop i) (hm : 1 ≤ p.m) (he : 0 < p.epsilon) (hf0 : 0 < p.ftol)
    (hf1 : p.ftol < 1) (x0 : Fin n → K) (cb : σ) (o : Out n K) (h : Lbfgs env p x0 cb o) :
    ((o.reports.length : K) - 1 - n) * owlDecrease p.ftol p.epsilon mu L p.m.toNat n ≤
      (n + 1) * (penalised (fun x => (env.eval x).1) p.c p.start stop x0 - B) := by
  have hstop : (fillEnd n p).stop = stop := by rw [fillEnd_eq, hs]
  have hobj : obj env (fillEnd n p) = penalised (fun x => (env.eval x).1) p.c p.start stop := by
    funext x; unfold obj; rw [hstop, fillEnd_eq]
  have hJB : ∀ x, B ≤ obj env (fillEnd n p) x := by
    intro x
    rw [hobj]
    unfold penalised
    have := mul_nonneg hc.le (show 0 ≤ l1 p.start stop x from sum_nonneg fun _ _ => abs_nonneg _)
    linarith [hB x]
  rw [← hobj]
  have hn1 : (0 : K) < n + 1 := by positivity
  have hnil : ∀ r : Nat, r = 0 → 0 < n → ((r : K) - 1 - n) * owlDecrease p.ftol p.epsilon mu L p.m.toNat n ≤
      (n + 1) * (obj env (fillEnd n p) x0 - B) := by
    rintro _ rfl hn
    have h1 := owlDecrease_pos hf0 hf1 he hG.mu_pos hG.L_pos p.m.toNat hn
    have h2 := mul_nonneg hn1.le (sub_nonneg.2 (hJB x0))
    have h3 := mul_pos hn1 h1
    rw [Nat.cast_zero]
    linarith
  rcases Nat.eq_zero_or_pos n with rfl | hn
  · cases h with
    | rejected =>
      have h2 := mul_nonneg hn1.le (sub_nonneg.2 (hJB x0))
      have h3 : owlDecrease p.ftol p.epsilon mu L p.m.toNat 0 = 0 := by
        unfold owlDecrease owlGain owlSlope; simp
      rw [h3, mul_zero]
      exact h2
    | already hck => exact absurd (check_facts hck).2.2.2.2.2.2.2.2.2.2.2.2.2 (lt_irrefl _)
    | run hck => exact absurd (check_facts hck).2.2.2.2.2.2.2.2.2.2.2.2.2 (lt_irrefl _)
  cases h with
  | rejected => exact hnil _ rfl hn
  | already => exact hnil _ rfl hn
  | run hck ha hr =>
    obtain ⟨x, hx⟩ := owl_end (fun s hs h0 => owl_mono (by rw [hstop]; exact hall) hs h0)
      (fun s hs h1 h0 => owl_iteration hsq hG hF hc.ne' hm (by rw [hstop]; exact hall) hf0 hf1 he hs h1 h0) hr
      (.start hck ha)
    have hmu := hG.mu_pos
    exact chain_count (show 0 < p.ftol * mu / 4 by positivity) hG.L_pos
      (owlGain_pos hf0 hf1 he hG.mu_pos hG.L_pos _ hn).le (owlSlope_pos he hG.mu_pos hG.L_pos _ hn) hG.lip hJB hx

/-- C136.  With any range of penalised variables the decrease in `n + 1` iterations is at least
    `rangeDecrease`, which depends also on `max_linesearch`, so that the number of iterations is bounded in the
    same way. -/
theorem C136_range_bound (env : Env n σ K) (hsq : IsSqrt env.sqrt) (mu L B : K)
    (hG : StrongSmooth (fun x => (env.eval x).2) mu L)
    (hF : ConvexGrad (fun x => (env.eval x).1) (fun x => (env.eval x).2)) (hB : ∀ x, B ≤ (env.eval x).1)
    (p : Par K) (hc : 0 < p.c) (stop : Int) (hs : stop = if p.stop < 0 then (n : Int) else p.stop)
    (hm : 1 ≤ p.m) (he : 0 < p.epsilon) (hf0 : 0 < p.ftol)
    (hf1 : p.ftol < 1) (x0 : Fin n → K) (cb : σ) (o : Out n K) (h : Lbfgs env p x0 cb o) :
    ((o.reports.length : K) - 1 - n) * rangeDecrease p.ftol p.epsilon mu L p.m.toNat n p.maxLinesearch.toNat ≤
      (n + 1) * (penalised (fun x => (env.eval x).1) p.c p.start stop x0 - B) := by
  have hstop : (fillEnd n p).stop = stop := by rw [fillEnd_eq, hs]
  have hobj : obj env (fillEnd n p) = penalised (fun x => (env.eval x).1) p.c p.start stop := by
    funext x; unfold obj; rw [hstop, fillEnd_eq]
  have hJB : ∀ x, B ≤ obj env (fillEnd n p) x := by
    intro x
    rw [hobj]
    unfold penalised
    have := mul_nonneg hc.le (show 0 ≤ l1 p.start stop x from sum_nonneg fun _ _ => abs_nonneg _)
    linarith [hB x]
  rw [← hobj]
  have hn1 : (0 : K) < n + 1 := by positivity
  have hnil : ∀ r : Nat, r = 0 → 0 < n → ((r : K) - 1 - n) * rangeDecrease p.ftol p.epsilon mu L p.m.toNat n p.maxLinesearch.toNat ≤
      (n + 1) * (obj env (fillEnd n p) x0 - B) := by
    rintro _ rfl hn
    have h1 := rangeDecrease_pos hf0 he hG.mu_pos hG.L_pos p.m.toNat p.maxLinesearch.toNat hn
    have h2 := mul_nonneg hn1.le (sub_nonneg.2 (hJB x0))
    have h3 := mul_pos hn1 h1
    rw [Nat.cast_zero]
    linarith
  rcases Nat.eq_zero_or_pos n with rfl | hn
  · cases h with
    | rejected =>
      have h2 := mul_nonneg hn1.le (sub_nonneg.2 (hJB x0))
      have h3 : 0 ≤ rangeDecrease p.ftol p.epsilon mu L p.m.toNat 0 p.maxLinesearch.toNat := by
        have h4 := rangeGain_pos hf0 he hG.mu_pos hG.L_pos p.m.toNat p.maxLinesearch.toNat
        have h5 := hG.mu_pos
        unfold rangeDecrease
        exact le_min h4.le (by positivity)
      simp only [List.length_nil, Nat.cast_zero] at h2 ⊢
      linarith
    | already hck => exact absurd (check_facts hck).2.2.2.2.2.2.2.2.2.2.2.2.2 (lt_irrefl _)
    | run hck => exact absurd (check_facts hck).2.2.2.2.2.2.2.2.2.2.2.2.2 (lt_irrefl _)
  cases h with
  | rejected => exact hnil _ rfl hn
  | already => exact hnil _ rfl hn
  | run hck ha hr =>
    obtain ⟨x, hx⟩ := owl_end (fun s hs h0 => range_mono hF hf1 hs h0)
      (fun s hs h1 h0 => range_iteration hsq hG hF hc.ne' hm hf0 hf1 he hs h1 h0) hr
      (.start hck ha)
    have hmu := hG.mu_pos
    exact chain_count (show 0 < p.ftol * mu / 4 by positivity) hG.L_pos
      (rangeGain_pos hf0 he hG.mu_pos hG.L_pos _ p.maxLinesearch.toNat).le
        (half_pos (owlSlope_pos he hG.mu_pos hG.L_pos _ hn)) hG.lip hJB hx

/-- C136.  So every call ends (with any range of penalised variables), also without a limit on the iterations. -/
theorem C136_ends [Archimedean K] (env : Env n σ K) (hsq : IsSqrt env.sqrt) (mu L B : K)
    (hG : StrongSmooth (fun x => (env.eval x).2) mu L)
    (hF : ConvexGrad (fun x => (env.eval x).1) (fun x => (env.eval x).2)) (hB : ∀ x, B ≤ (env.eval x).1)
    (p : Par K) (hc : 0 < p.c) (stop : Int) (hs : stop = if p.stop < 0 then (n : Int) else p.stop)
    (hm : 1 ≤ p.m) (he : 0 < p.epsilon) (hf0 : 0 < p.ftol)
    (hf1 : p.ftol < 1) (x0 : Fin n → K) (cb : σ) : ∃ o, Lbfgs env p x0 cb o := by
  have hstop : (fillEnd n p).stop = stop := by rw [fillEnd_eq, hs]
  have hobj : obj env (fillEnd n p) = penalised (fun x => (env.eval x).1) p.c p.start stop := by
    funext x; unfold obj; rw [hstop, fillEnd_eq]
  have hJB : ∀ x, B ≤ obj env (fillEnd n p) x := by
    intro x
    rw [hobj]
    unfold penalised
    have := mul_nonneg hc.le (show 0 ≤ l1 p.start stop x from sum_nonneg fun _ _ => abs_nonneg _)
    linarith [hB x]
  have hmu := hG.mu_pos
  rcases hck : check n p with _ | code
  · have hn : 0 < n := (check_facts hck).2.2.2.2.2.2.2.2.2.2.2.2.2
    by_cases ha : already env (fillEnd n p) (start env (fillEnd n p) x0 cb)
    · exact ⟨_, .already hck ha⟩
    · have hD := rangeDecrease_pos hf0 he hG.mu_pos hG.L_pos p.m.toNat p.maxLinesearch.toNat hn
      obtain ⟨b, hb⟩ := exists_nat_gt ((n + 1) * (obj env (fillEnd n p) x0 - B) /
        rangeDecrease p.ftol p.epsilon mu L p.m.toNat n p.maxLinesearch.toNat + 1 + n)
      have hlen : ∀ s, Reach env p x0 cb s → s.reports.length ≤ b := by
        intro s hr
        have h1 := chain_count (show 0 < p.ftol * mu / 4 by positivity) hG.L_pos
          (rangeGain_pos hf0 he hG.mu_pos hG.L_pos _ p.maxLinesearch.toNat).le
            (half_pos (owlSlope_pos he hG.mu_pos hG.L_pos _ hn)) hG.lip hJB
          (owl_chain (fun s hs h0 => range_mono hF hf1 hs h0)
            (fun s hs h1 h0 => range_iteration hsq hG hF hc.ne' hm hf0 hf1 he hs h1 h0) hr)
        have h2 : (s.reports.length : K) - 1 - n ≤ (n + 1) * (obj env (fillEnd n p) x0 - B) /
            rangeDecrease p.ftol p.epsilon mu L p.m.toNat n p.maxLinesearch.toNat := by
          rw [le_div_iff₀ hD]; exact h1
        have h3 : (s.reports.length : K) < b := by linarith
        exact_mod_cast h3.le
      obtain ⟨o, ho⟩ := run_of_bound b hlen b _ (.start hck ha) (by omega)
      exact ⟨o, .run hck ha ho⟩
  · exact ⟨_, .rejected hck⟩

/-- C136.  With a progress callable that never stops the run and room for the steps, the only results of a call
    with a penalty are convergence, the delta-based stop, the limit on the iterations and a failed line search
    (too many trials, or too short a step). -/
theorem C136_codes (env : Env n σ K) (hsq : IsSqrt env.sqrt)
    (hpr : ∀ cb x g a b c d k l, (env.progress cb x g a b c d k l).1 = 0)
    (p : Par K) (hck : ∀ e, ¬ Violates n p e) (hc : 0 < p.c) (he : 0 < p.epsilon)
    (hmax : max 1 (1 / p.epsilon) ≤ p.maxStep) (x0 : Fin n → K) (cb : σ) (o : Out n K) (h : Lbfgs env p x0 cb o) :
    o.ret = 0 ∨ (o.ret = 2 ∧ o.reports = []) ∨ (o.ret = 1 ∧ 0 < p.past) ∨
      (o.ret = -997 ∧ p.maxIterations ≠ 0) ∨ o.ret = -998 ∨ (o.ret = -1000 ∧ 0 < p.minStep) := by
  have hck := (C71_accepted_partial p).2 hck
  cases h with
  | rejected h => rw [hck] at h; cases h
  | already => exact .inr (.inl ⟨rfl, rfl⟩)
  | run _ ha hr =>
    suffices ∀ s, Run env (fillEnd n p) s o → Reach env p x0 cb s → o.ret = 0 ∨ (o.ret = 1 ∧ 0 < p.past) ∨
        (o.ret = -997 ∧ p.maxIterations ≠ 0) ∨ o.ret = -998 ∨ (o.ret = -1000 ∧ 0 < p.minStep) by
      rcases this _ hr (.start hck ha) with h | h
      · exact .inl h
      · exact .inr (.inr h)
    clear hr
    intro s h hreach
    induction h with
    | next h _ ih => exact ih (.next hreach h)
    | @done s o h =>
      have ok := ok_of_check hck
      by_cases h0 : (lineSearch env (fillEnd n p) s).ret < 0
      · have hst := reach_step hsq.zero (fun _ => hsq.pos) hreach
        have hle := (owl_step_le hsq hc.ne' he hreach).1
        have hf := owlqnLoop_fails env (fillEnd n p) s.x s.pg (fun i => if feq (s.x i) 0 then -s.pg i else s.x i) s.d
          s.fx (fillEnd n p).maxLinesearch.toNat 0 s.step [] hst (by rw [fillEnd_eq]; exact hle.trans hmax)
          (by have := ok.maxLs; omega) (by have := ok.maxLs; omega)
        have e : lineSearch env (fillEnd n p) s = owlqnLoop env (fillEnd n p) s.x s.pg
            (fun i => if feq (s.x i) 0 then -s.pg i else s.x i) s.d s.fx (fillEnd n p).maxLinesearch.toNat 0 s.step [] := by
          unfold lineSearch backtrackingOwlqn
          rw [if_neg (by rw [feq_iff, fillEnd_eq]; exact hc.ne'), if_neg (not_le.2 hst)]
        rw [← e] at hf
        rcases iterate_inr h with ⟨_, rfl⟩ | ⟨h1, _⟩
        · rcases hf h0 with hf | hf
          · exact .inr (.inr (.inr (.inl hf)))
          · refine .inr (.inr (.inr (.inr ⟨hf.1, ?_⟩)))
            have := hf.2
            rwa [fillEnd_eq] at this
        · exact absurd h0 (not_lt.2 h1)
      · unfold iterate at h
        dsimp only at h
        rw [if_neg h0, if_neg (fun h => h (hpr _ _ _ _ _ _ _ _ _))] at h
        split_ifs at h with h3 h4 h5
        · cases h; exact .inl rfl
        · cases h
          refine .inr (.inl ⟨rfl, ?_⟩)
          have := h4.1
          rwa [fillEnd_eq] at this
        · cases h
          refine .inr (.inr (.inl ⟨rfl, ?_⟩))
          have := h5.1
          rwa [fillEnd_eq] at this

/-- C136.  A reported convergence locates the minimiser `z` of the penalised objective (with any range of
    penalised variables): the distance of the result to it is at most `epsilon * max(1, |x|) / mu`. -/
theorem C136_accuracy (env : Env n σ K) (hsq : IsSqrt env.sqrt) (mu L : K)
    (hG : StrongSmooth (fun x => (env.eval x).2) mu L) (p : Par K) (hc : 0 < p.c) (stop : Int)
    (hs : stop = if p.stop < 0 then (n : Int) else p.stop) (x0 : Fin n → K) (cb : σ)
    (o : Out n K) (h : Lbfgs env p x0 cb o) (hr : o.ret = 0 ∨ (o.ret = 2 ∧ o.reports = [])) (z : Fin n → K)
    (hz : FirstOrder p.c p.start stop z (env.eval z).2) :
    mu ^ 2 * dot (fun i => o.x i - z i) (fun i => o.x i - z i) ≤ p.epsilon ^ 2 * max 1 (dot o.x o.x) := by
  have h1 := C84_criterion env hsq p x0 cb o h hr stop hs
  simp only [if_neg hc.ne'] at h1
  exact (owl_distance hG hc.le p.start stop o.x z hz).trans h1

/-- C136 for `fmin_lbfgs` with `orthantwise_c > 0` (with any range of penalised variables), without the delta-based stop and without a
    limit on the iterations: the call always ends, and it returns a point without a warning, whose distance to
    the minimiser of the penalised objective is at most `epsilon * max(1, |x|) / mu`, or returns a point with
    the warning about the number of trials, or (only if `min_step` is positive) raises `LBFGSError`. -/
theorem C136_fmin_partial [Archimedean K] (c : Callables n σ K) (hsq : IsSqrt c.sqrt) (F : (Fin n → K) → K)
    (G : (Fin n → K) → Fin n → K) (hf : ∀ x, c.f x = (.ok (F x), G x))
    (hpr : ∀ cb x g f xn gn st k ls, (c.progress cb x g f xn gn st k ls).1 = .ok none ∨
      (c.progress cb x g f xn gn st k ls).1 = .ok (some 0))
    (mu L B : K) (hG : StrongSmooth G mu L) (hF : ConvexGrad F G) (hB : ∀ x, B ≤ F x)
    (a : Args K) (hck : ∀ e, ¬ Violates n { a.par with linesearch := 2 } e)
    (hc : 0 < a.par.c) (stop : Int) (hs : stop = if a.par.stop < 0 then (n : Int) else a.par.stop)
    (hm : 1 ≤ a.par.m) (he : 0 < a.par.epsilon)
    (hpast : a.par.past = 0) (hit : a.par.maxIterations = 0) (hf0 : 0 < a.par.ftol) (hf1 : a.par.ftol < 1)
    (hmax : max 1 (1 / a.par.epsilon) ≤ a.par.maxStep) (x0 : Fin n → K) (cb : σ) :
    (∃ res tr, Fmin c a x0 cb res tr) ∧
    ∀ res tr, Fmin c a x0 cb res tr →
      (∃ x, res = .returned x none ∧
        ∀ z, FirstOrder a.par.c a.par.start stop z (G z) →
          mu ^ 2 * dot (fun i => x i - z i) (fun i => x i - z i) ≤ a.par.epsilon ^ 2 * max 1 (dot x x)) ∨
      (∃ x, res = .returned x (some "The line-search routine reaches the maximum number of evaluations.")) ∨
      (0 < a.par.minStep ∧ ∃ m, res = .raised .lbfgsError m) := by
  have e1 : (fun x => (c.env.eval x).1) = F := by funext x; simp only [Callables.env]; rw [hf]
  have e2 : (fun x => (c.env.eval x).2) = G := by funext x; simp only [Callables.env]; rw [hf]
  have hG' : StrongSmooth (fun x => (c.env.eval x).2) mu L := by rw [e2]; exact hG
  have hF' : ConvexGrad (fun x => (c.env.eval x).1) (fun x => (c.env.eval x).2) := by rw [e1, e2]; exact hF
  have hB' : ∀ x, B ≤ (c.env.eval x).1 := fun x => by rw [congrFun e1 x]; exact hB x
  have hp' : ∀ cb x g a b d e k l, (c.env.progress cb x g a b d e k l).1 = 0 := by
    intro cb x g a b d e k l
    simp only [Callables.env]
    rcases hpr cb x g a b d e k l with h | h <;> rw [h]
  have hpar : fminPar a = .ok { a.par with linesearch := 2 } := by
    have hw : (chooseSearch a).1 = "wolfe" := by
      unfold chooseSearch
      by_cases h1 : a.lineSearch = "wolfe"
      · rw [h1]; simp
      · by_cases h2 : a.lineSearch = "default"
        · rw [h2]; simp [hc]
        · simp [h1, h2, hc]
    unfold fminPar
    rw [if_neg (not_not.2 hc.le), hw]
    rfl
  obtain ⟨o, ho⟩ := C136_ends c.env hsq mu L B hG' hF' hB' { a.par with linesearch := 2 } hc stop hs hm he hf0 hf1
    x0 cb
  refine ⟨⟨_, _, .run hpar ho⟩, fun res tr h => ?_⟩
  cases h with
  | bad h => rw [hpar] at h; cases h
  | @run p o h ho =>
    rw [hpar] at h
    cases h
    have hconv : o.ret = 0 ∨ (o.ret = 2 ∧ o.reports = []) → ∃ x, finish o = .returned x none ∧
        ∀ z, FirstOrder a.par.c a.par.start stop z (G z) →
          mu ^ 2 * dot (fun i => x i - z i) (fun i => x i - z i) ≤ a.par.epsilon ^ 2 * max 1 (dot x x) := by
      intro hcode
      refine ⟨o.x, ?_, fun z hz => ?_⟩
      · unfold finish
        rw [if_pos]
        rcases hcode with h | ⟨h, _⟩ <;> rw [h] <;> decide +kernel
      · exact C136_accuracy c.env hsq mu L hG' { a.par with linesearch := 2 } hc stop hs x0 cb o ho hcode z (by
          rw [congrFun e2 z]; exact hz)
    rcases C136_codes c.env hsq hp' _ hck hc he hmax x0 cb o ho with h | h | ⟨_, h⟩ | ⟨_, h⟩ | h | ⟨h, h'⟩
    · exact .inl (hconv (.inl h))
    · exact .inl (hconv (.inr h))
    · exact absurd hpast h.ne'
    · exact absurd hit h
    · refine .inr (.inl ⟨o.x, ?_⟩)
      unfold finish
      rw [h, if_neg (by decide +kernel), if_pos (by decide +kernel)]
      rfl
    · refine .inr (.inr ⟨h', message (-1000), ?_⟩)
      unfold finish
      rw [h, if_neg (by decide +kernel), if_neg (by decide +kernel), if_neg (by decide +kernel),
        if_neg (by decide +kernel)]
      rfl

/-- `exBowl` with a penalty on the second variable, default line search and parameters: the conditions hold, and
    the minimiser is zero. -/
example (x0 : Fin 2 → ℝ) : ∃ res tr, Fmin (⟨Real.sqrt, fun x => (.ok ((x 0 ^ 2 + 2 * x 1 ^ 2) / 2), ![x 0, 2 * x 1]),
      fun s _ _ _ _ _ _ _ _ => (.ok none, s)⟩ : Callables 2 Unit ℝ)
    ⟨⟨6, 1/100000, 0, 0, 0, 0, 40, 0, 10^20, 1/10000, 9/10, 9/10, 1/10^30, 1, 1, -1⟩, "default"⟩ x0 () res tr ∧
    ((∃ x, res = .returned x none ∧ dot x x ≤ (1/100000) ^ 2 * max 1 (dot x x)) ∨
      ∃ x, res = .returned x (some "The line-search routine reaches the maximum number of evaluations.")) := by
  obtain ⟨⟨res, tr, h⟩, h2⟩ := C136_fmin_partial
    (⟨Real.sqrt, fun x => (.ok ((x 0 ^ 2 + 2 * x 1 ^ 2) / 2), ![x 0, 2 * x 1]),
      fun s _ _ _ _ _ _ _ _ => (.ok none, s)⟩ : Callables 2 Unit ℝ) exBowl_sqrt
    _ _ (fun _ => rfl) (fun _ _ _ _ _ _ _ _ _ => .inl rfl) 1 2 0 exBowl_strong exBowl_convex exBowl_bound
    ⟨⟨6, 1/100000, 0, 0, 0, 0, 40, 0, 10^20, 1/10000, 9/10, 9/10, 1/10^30, 1, 1, -1⟩, "default"⟩
    (fun e he => by cases he <;> norm_num at *) (by norm_num) 2 rfl
    (by decide) (by norm_num) rfl rfl (by norm_num) (by norm_num)
    (by norm_num) x0 ()
  refine ⟨res, tr, h, ?_⟩
  rcases h2 _ _ h with ⟨x, hx, hz⟩ | hx | ⟨hx, _⟩
  · refine .inl ⟨x, hx, ?_⟩
    have := hz ![0, 0] (fun i => by
      unfold Penalised
      fin_cases i <;> simp)
    simpa [dot] using this
  · exact .inr hx
  · exact absurd hx (lt_irrefl _)

/-- The calls from all points end, and report convergence, a failed search or the limit of 50 iterations. -/
example (x0 : Fin 2 → ℝ) :
    (∃ o, Lbfgs exBowl ⟨1, 1/10, 0, 0, 50, 2, 40, 0, 100, 1/2, 9/10, 9/10, 0, 1, 1, -1⟩ x0 () o) ∧
    ∀ o, Lbfgs exBowl ⟨1, 1/10, 0, 0, 50, 2, 40, 0, 100, 1/2, 9/10, 9/10, 0, 1, 1, -1⟩ x0 () o →
      (dot o.x o.x ≤ (1/10) ^ 2 * max 1 (dot o.x o.x)) ∨ o.ret = -997 ∨ o.ret = -998 := by
  refine ⟨C136_ends exBowl exBowl_sqrt 1 2 0 exBowl_strong exBowl_convex exBowl_bound _ (by norm_num) 2 rfl
    le_rfl (by norm_num) (by norm_num) (by norm_num) x0 (),
    fun o h => ?_⟩
  have hacc : o.ret = 0 ∨ (o.ret = 2 ∧ o.reports = []) → dot o.x o.x ≤ (1/10) ^ 2 * max 1 (dot o.x o.x) := by
    intro hr
    have := C136_accuracy exBowl exBowl_sqrt 1 2 exBowl_strong _ (by norm_num) 2 rfl x0 () o h hr ![0, 0] (fun i => by
      unfold Penalised
      fin_cases i <;> simp [exBowl])
    simpa [dot] using this
  rcases C136_codes exBowl exBowl_sqrt (fun _ _ _ _ _ _ _ _ _ => rfl) _ (fun e he => by cases he <;> norm_num at *)
    (by norm_num) (by norm_num) (by norm_num) x0 () o h with h | h | ⟨_, h⟩ | h | h | ⟨_, h⟩
  · exact .inl (hacc (.inl h))
  · exact .inl (hacc (.inr h))
  · exact absurd h (by norm_num)
  · exact .inr (.inl h.1)
  · exact .inr (.inr h)
  · exact absurd h (by norm_num)

/-- The number of iterations on `exBowl` with a penalty on both variables, from `(3, 4)`. -/
example (o : Out 2 ℝ) (h : Lbfgs exBowl ⟨1, 1/10, 0, 0, 0, 2, 40, 0, 100, 1/2, 9/10, 9/10, 0, 1, 0, -1⟩ ![3, 4] () o) :
    (o.reports.length : ℝ) ≤ 10 ^ 12 := by
  have := C136_bound_partial exBowl exBowl_sqrt 1 2 0 exBowl_strong exBowl_convex exBowl_bound _ (by norm_num) 2 rfl
    (fun i => by unfold Penalised; fin_cases i <;> simp) le_rfl (by norm_num) (by norm_num) (by norm_num)
    ![3, 4] () o h
  norm_num [exBowl, owlDecrease, owlGain, owlSlope, owlLength, stretch, descent, lower, upper, penalised, exStall_l1] at this
  linarith

/-- The number of iterations on `exBowl` with a penalty on the second variable and at most 3 trials. -/
example (o : Out 2 ℝ) (h : Lbfgs exBowl ⟨1, 1/10, 0, 0, 0, 2, 3, 0, 100, 1/2, 9/10, 9/10, 0, 1, 1, -1⟩ ![3, 4] () o) :
    (o.reports.length : ℝ) ≤ 10 ^ 12 := by
  have := C136_range_bound exBowl exBowl_sqrt 1 2 0 exBowl_strong exBowl_convex exBowl_bound _ (by norm_num) 2 rfl
    le_rfl (by norm_num) (by norm_num) (by norm_num) ![3, 4] () o h
  have e : l1 1 2 (![3, 4] : Fin 2 → ℝ) = 4 := by
    unfold l1; simp [Finset.sum_filter, Fin.sum_univ_two, Penalised]
  norm_num [exBowl, rangeDecrease, rangeGain, owlSlope, stretch, descent, lower, upper, penalised, e,
    show Int.toNat 3 = 3 from rfl] at this
  linarith

/-- C136 is not true without the alternative of a failed line search: for every `max_linesearch` there is a
    quadratic objective (with the constants 1/3 and 2, so that no choice of `max_linesearch` from the constants
    helps) and a starting point from which the call fails with the code for too many trials, at a point where
    the slope is at least 1. -/
theorem C136_negation (N : Nat) (hN : 1 ≤ N) :
    ∃ (env : Env 2 Unit ℝ) (x0 : Fin 2 → ℝ) (o : Out 2 ℝ) (p : Par ℝ), IsSqrt env.sqrt ∧
      StrongSmooth (fun x => (env.eval x).2) (1 / 3) 2 ∧
      ConvexGrad (fun x => (env.eval x).1) (fun x => (env.eval x).2) ∧ (∀ x, -10 ≤ (env.eval x).1) ∧
      p = ⟨6, 1/10, 0, 0, 0, 2, N, 0, 100, 1/4, 9/10, 9/10, 0, 1, 0, 2⟩ ∧
      Lbfgs env p x0 () o ∧ o.ret = -998 ∧
      1 ≤ dot (pseudoGradient o.x (env.eval o.x).2 1 0 2) (pseudoGradient o.x (env.eval o.x).2 1 0 2) := by
  have h0 : (0:ℝ) < 1 / 2 ^ (2 * N + 4) := by positivity
  have h1 : (1:ℝ) / 2 ^ (2 * N + 4) ≤ 1 := by
    rw [div_le_one (by positivity)]
    exact one_le_pow₀ (by norm_num)
  obtain ⟨o, ho, hret, hx, _⟩ := exStall_fails hN
  refine ⟨_, _, o, _, exStall_sqrt _, exStall_strong _, exStall_convex _, exStall_bound h0 h1, rfl, ho, hret, ?_⟩
  rw [hx, exStall_pg _ h0 (show (0:ℝ) < 1 by norm_num)]
  simp only [dot, Fin.sum_univ_two, Matrix.cons_val_zero, Matrix.cons_val_one]
  nlinarith

end Verif.Lbfgs
