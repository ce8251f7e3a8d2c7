import Verif.Lemmas.FitResult
import Verif.Props.Fit
/-!
C13-C15: what a completed fit holds in `estimates_`, `scores_`, the chosen supports and `coef_`.
All theorems are about any number of processes (one included), any solver, any data.
-/
namespace Verif.Fit
open Verif.Py Verif.MpiUtils Verif.Intersection Verif.Spec.Fit

variable {K G S M RP : Type} {n : Nat}

/-- The estimator of the examples returns one coefficient per selected feature. -/
theorem demo_wellShaped : WellShaped demo := by
  refine ⟨by decide, fun mask tr m h => ?_⟩
  injection h with h
  subst h
  simp [demo]

/-- A completed run of it, on two processes. -/
theorem demo_runs : Runs (fun r : Fin 2 => fit demo 2 r.val (3 * r.val) (5 + r.val))
    (fun _ => .ok demoSt) :=
  C08_distributed_eq_serial (env := demo) (by decide) (by decide) demo_good.1 demo_good.2
    (fun r => 3 * r.val) 0 (fun r => 5 + r.val) demoSt (demo_serial 0)

/-! ### C13 -/

/-- **C13**.  In a completed fit, for each estimation bootstrap `b` (the splits are successive
    draws of process 0's generator) and each candidate support `i`, the row `estimates_[b, i]` and
    the score `scores_[b, i]` are those of that candidate, fitted on that bootstrap (`Candidate`).
-/
theorem C13_estimates_of_candidates [LinearOrder K] [Field K] {env : Env K G S M RP} (hn : 0 < n)
    (hI : GoodIntercept env) (hS : WellShaped env) (g : Fin n → G) (s : Fin n → S)
    (st : Fin n → FitState K)
    (h : Runs (fun r : Fin n => fit env n r.val (g r) (s r)) fun r => .ok (st r)) (r : Fin n) :
    ∃ b1 g1 boots g2 k, Draws env false (g ⟨0, hn⟩) b1 g1 ∧ b1.length = env.nBootsSel ∧
      Draws env true g1 boots g2 ∧ boots.length = env.nBootsEst ∧
      (st r).estimates.shape = [env.nBootsEst, k, env.outDim * env.nFeat] ∧
      (st r).scores.shape = [env.nBootsEst, k] ∧
      ∀ b < env.nBootsEst, ∀ i < k, ∃ sp mask row sc, boots[b]? = some sp ∧
        maskAt (st r).supports i = some mask ∧ Candidate env sp mask row sc ∧
        HasAt (st r).scores [b, i] sc ∧
        ∀ o < env.outDim, ∀ j < env.nFeat,
          HasAt (st r).estimates [b, i, o * env.nFeat + j] (row o j) := by
  obtain ⟨b1, g1, b2, g2, B, k, h1, h2, _, h4, h5⟩ := fit_of_runs hn hI h r
  obtain ⟨e1, _, e3, e4, _, row, sc, e6, _⟩ := estimation_spec hS h5
  refine ⟨b1, g1, b2, g2, k, (draws_of_drawList h1).1, (draws_of_drawList h1).2,
    (draws_of_drawList h2).1, (draws_of_drawList h2).2, e3, e4, fun b hb i hi => ?_⟩
  obtain ⟨sp, mask, a1, a2, a3, a4, a5⟩ := e6 b hb i hi
  exact ⟨sp, mask, _, _, a1, by rw [e1]; exact a2, a3, a4, a5⟩

/-- **C13**, zeros: `estimates_[b, i]` vanishes outside the support.  With a support shared between
    outputs this needs nothing of the solver; with one support per coefficient the solver's own
    coefficients must vanish outside the mask it was given (see C47). -/
theorem C13_zero_outside_support [LinearOrder K] [Field K] {env : Env K G S M RP} (hn : 0 < n)
    (hI : GoodIntercept env) (hS : WellShaped env)
    (hmasked : env.shared = false → ∀ mask tr m p, env.fitEst mask tr = .ok m →
      mask[p]? = some false → (env.estCoef m).getD p 0 = 0)
    (g : Fin n → G) (s : Fin n → S) (st : Fin n → FitState K)
    (h : Runs (fun r : Fin n => fit env n r.val (g r) (s r)) fun r => .ok (st r)) (r : Fin n)
    (b i o j : Nat) (hb : b < env.nBootsEst) (ho : o < env.outDim) (hj : j < env.nFeat)
    (mask : List Bool) (hm : maskAt (st r).supports i = some mask)
    (hout : mask[if env.shared then j else o * env.nFeat + j]? = some false) :
    HasAt (st r).estimates [b, i, o * env.nFeat + j] 0 := by
  obtain ⟨b1, g1, b2, g2, B, k, h1, h2, _, h4, h5⟩ := fit_of_runs hn hI h r
  obtain ⟨e1, _, e3, e4, _, row, sc, e6, _⟩ := estimation_spec hS h5
  have hik : i < k := by
    rw [e1] at hm
    cases B with
    | d0 _ => cases hm
    | d1 xs =>
      simp only [shape0, Except.ok.injEq] at h4
      simp only [maskAt, Option.map_eq_some_iff] at hm
      obtain ⟨x, hx, _⟩ := hm
      rw [← h4]; exact (List.getElem?_eq_some_iff.1 hx).1
    | d2 rows =>
      simp only [shape0, Except.ok.injEq] at h4
      rw [← h4]; exact (List.getElem?_eq_some_iff.1 hm).1
  obtain ⟨sp, mask', a1, a2, a3, a4, a5⟩ := e6 b hb i hik
  rw [e1] at hm
  have hmm : mask' = mask := by rw [hm] at a2; injection a2 with a2; exact a2.symm
  subst hmm
  have hrow : row b i o j = 0 := by
    cases a3 with
    | empty m _ _ _ hz => exact hz o ho j hj
    | shared m hsh _ _ _ _ hz _ =>
      rw [if_pos hsh] at hout
      exact hz o ho j hj hout
    | perCoef m hsh _ hf _ hc =>
      have hne : ¬ env.shared = true := by simp [hsh]
      rw [if_neg hne] at hout
      have := hc o ho j hj
      have h0 := hmasked hsh _ _ _ _ hf hout
      rw [List.getD_eq_getElem?_getD, this] at h0
      exact h0
  have := a5 o ho j hj
  rwa [hrow] at this

/-- First bootstrap, first support `[true, false]`: the second feature is zero. -/
example : HasAt demoSt.estimates [0, 0, 1] 0 :=
  C13_zero_outside_support (n := 2) (by decide) demo_good.2 demo_wellShaped
    (fun h => absurd h (by decide)) _ _ _ demo_runs 0 0 0 0 1 (by decide) (by decide) (by decide)
    [true, false] rfl rfl

/-! ### C14 -/

/-- **C14**.  `coef_` before `_post_fit` (which undoes standardization and is the identity without
    it) is, coordinate by coordinate, the median over the estimation bootstraps of the estimate of
    the chosen support. -/
theorem C14_coef_is_median [LinearOrder K] [Field K] {env : Env K G S M RP} (hn : 0 < n)
    (hI : GoodIntercept env) (hS : WellShaped env) (hb : 0 < env.nBootsEst)
    (g : Fin n → G) (s : Fin n → S) (st : Fin n → FitState K)
    (h : Runs (fun r : Fin n => fit env n r.val (g r) (s r)) fun r => .ok (st r)) (r : Fin n) :
    ∃ coef0 int0, env.fitIntercept coef0 = .ok int0 ∧
      env.post coef0 int0 = .ok ((st r).coef, (st r).intercept) ∧
      coef0.shape = [env.outDim, env.nFeat] ∧
      ∀ o < env.outDim, ∀ j < env.nFeat, ∃ (best : Nat → K) (c : K), HasAt coef0 [o, j] c ∧
        (∀ b < env.nBootsEst, ∃ i, (st r).rpMax[b]? = some i ∧
          HasAt (st r).estimates [b, i, o * env.nFeat + j] (best b)) ∧
        IsMedian ((List.range env.nBootsEst).map best) c := by
  obtain ⟨b1, g1, b2, g2, B, k, h1, h2, _, h4, h5⟩ := fit_of_runs hn hI h r
  obtain ⟨_, _, _, _, _, row, sc, e6, e7, coef0, int0, e8, e9, e10, e11⟩ := estimation_spec hS h5
  refine ⟨coef0, int0, e8, e9, e10, fun o ho j hj => ?_⟩
  obtain ⟨c, hc, hmed⟩ := e11 o ho j hj
  refine ⟨fun b => row b ((st r).rpMax.getD b 0) o j, c, hc, fun b hb => ?_, hmed hb⟩
  obtain ⟨i, hi, hik, _⟩ := e7 b hb
  obtain ⟨_, _, _, _, _, _, a5⟩ := e6 b hb i hik
  have hid : (st r).rpMax.getD b 0 = i := by rw [List.getD_eq_getElem?_getD, hi]; rfl
  refine ⟨i, hi, ?_⟩
  beta_reduce
  rw [hid]
  exact a5 o ho j hj

/-- **C14**, order: a median lies between any bounds of the bootstrapped values. -/
theorem C14_between_extremes [LinearOrder K] [Field K] [IsStrictOrderedRing K] (xs : List K)
    (c lo hi : K) (h : IsMedian xs c) (hlo : ∀ x ∈ xs, lo ≤ x) (hhi : ∀ x ∈ xs, x ≤ hi) :
    lo ≤ c ∧ c ≤ hi :=
  median_between h hlo hhi

/-- **C14**, majority: a feature outside more than half of the chosen supports has coefficient
    zero (in particular one outside all of them). -/
theorem C14_majority_zero [LinearOrder K] [Field K] [IsStrictOrderedRing K]
    {env : Env K G S M RP} (hn : 0 < n)
    (hI : GoodIntercept env) (hS : WellShaped env)
    (hmasked : env.shared = false → ∀ mask tr m p, env.fitEst mask tr = .ok m →
      mask[p]? = some false → (env.estCoef m).getD p 0 = 0)
    (hpost : ∀ c i, env.post c i = .ok (c, i))
    (g : Fin n → G) (s : Fin n → S) (st : Fin n → FitState K)
    (h : Runs (fun r : Fin n => fit env n r.val (g r) (s r)) fun r => .ok (st r)) (r : Fin n)
    (o j : Nat) (ho : o < env.outDim) (hj : j < env.nFeat)
    (hmaj : env.nBootsEst < 2 * (List.range env.nBootsEst).countP fun b =>
      decide (((st r).rpMax[b]?.bind fun i => maskAt (st r).supports i).bind
        (·[if env.shared then j else o * env.nFeat + j]?) = some false)) :
    HasAt (st r).coef [o, j] 0 := by
  obtain ⟨b1, g1, b2, g2, B, k, h1, h2, _, h4, h5⟩ := fit_of_runs hn hI h r
  obtain ⟨e1, _, _, _, _, row, sc, e6, e7, coef0, int0, e8, e9, e10, e11⟩ := estimation_spec hS h5
  obtain ⟨c, hc, hmed⟩ := e11 o ho j hj
  have hb : 0 < env.nBootsEst := by
    rcases Nat.eq_zero_or_pos env.nBootsEst with h | h
    · rw [h] at hmaj; simp at hmaj
    · exact h
  have hc0 : c = 0 := by
    refine median_majority (hmed hb) ?_
    rw [List.length_map, List.length_range]
    refine hmaj.trans_le (Nat.mul_le_mul_left 2 ?_)
    rw [List.count, List.countP_map]
    refine List.countP_mono_left fun b hb hdec => ?_
    have hb := List.mem_range.1 hb
    obtain ⟨i, hi, hik, _⟩ := e7 b hb
    obtain ⟨sp, mask, a1, a2, a3, a4, a5⟩ := e6 b hb i hik
    have hid : (st r).rpMax.getD b 0 = i := by rw [List.getD_eq_getElem?_getD, hi]; rfl
    have hdec := of_decide_eq_true hdec
    rw [hi, e1] at hdec
    simp only [Option.bind_some, a2] at hdec
    simp only [Function.comp_apply, beq_iff_eq]
    rw [hid]
    cases a3 with
    | empty m _ _ _ hz => exact hz o ho j hj
    | shared m hsh _ _ _ _ hz _ =>
      rw [if_pos hsh] at hdec
      exact hz o ho j hj hdec
    | perCoef m hsh _ hf _ hcf =>
      have hne : ¬ env.shared = true := by simp [hsh]
      rw [if_neg hne] at hdec
      have h0 := hmasked hsh _ _ _ _ hf hdec
      rw [List.getD_eq_getElem?_getD, hcf o ho j hj] at h0
      exact h0
  have hp := hpost coef0 int0
  rw [e9] at hp
  injection hp with hp
  injection hp with hp1 hp2
  rw [hp1, ← hc0]
  exact hc

/-- The demo estimator with a score that prefers the smaller support. -/
def demoMaj : Env ℚ Nat ℚ (List ℚ) ℚ := { demo with score := fun m _ _ => .ok (-m.sum) }

/-- Both chosen supports are `[true, false]`, so the second coefficient is zero. -/
example : ∃ st : FitState ℚ, fit demoMaj 1 0 0 0 = .ret st ∧ HasAt st.coef [0, 1] 0 := by
  have hex : fit demoMaj 1 0 0 0 = .ret ⟨.d2 [[true, false], [true, true]],
      ⟨[2, 2, 2], .f64, [.f 7, .f 0, .f 7, .f 7, .f 10, .f 0, .f 10, .f 10]⟩,
      ⟨[2, 2], .f64, [.f (-7), .f (-14), .f (-10), .f (-20)]⟩, [0, 0],
      ⟨[1, 2], .f64, [.f (17 / 2), .f 0]⟩, ⟨[1], .f64, [.f 7]⟩⟩ :=
    ret_of_outcome (by decide +kernel)
  refine ⟨_, hex, ?_⟩
  refine C14_majority_zero (n := 1) (env := demoMaj) (by decide) demo_good.2 demo_wellShaped
    (fun h => absurd h (by decide)) (fun _ _ => rfl) (fun _ => 0) (fun _ => 0) (fun _ => _) ?_ 0 0 1 (by decide) (by decide)
    (by decide)
  refine .done fun r => ?_
  have : r = 0 := by apply Fin.ext; omega
  subst this
  exact congrArg Prog.outcome hex

/-! ### C15 -/

/-- **C15**.  For each estimation bootstrap the chosen support attains the maximum of the scores of
    that bootstrap and is the first one to do so. -/
theorem C15_chosen_is_first_maximum [LinearOrder K] [Field K] {env : Env K G S M RP} (hn : 0 < n)
    (hI : GoodIntercept env) (hS : WellShaped env) (g : Fin n → G) (s : Fin n → S)
    (st : Fin n → FitState K)
    (h : Runs (fun r : Fin n => fit env n r.val (g r) (s r)) fun r => .ok (st r)) (r : Fin n) :
    ∃ k, (st r).scores.shape = [env.nBootsEst, k] ∧ (st r).rpMax.length = env.nBootsEst ∧
      ∀ b < env.nBootsEst, ∃ i x, (st r).rpMax[b]? = some i ∧ i < k ∧
        HasAt (st r).scores [b, i] x ∧
        ∀ i' y, HasAt (st r).scores [b, i'] y → y ≤ x ∧ (i' < i → y < x) := by
  obtain ⟨b1, g1, b2, g2, B, k, h1, h2, _, h4, h5⟩ := fit_of_runs hn hI h r
  obtain ⟨_, _, _, e4, e5, row, sc, e6, e7, _⟩ := estimation_spec hS h5
  refine ⟨k, e4, e5, fun b hb => ?_⟩
  obtain ⟨i, hi, hik, hmax⟩ := e7 b hb
  obtain ⟨_, _, _, _, _, a4, _⟩ := e6 b hb i hik
  refine ⟨i, sc b i, hi, hik, a4, fun i' y hy => ?_⟩
  have hik' : i' < k := by
    obtain ⟨p, hp, _⟩ := hy
    rw [e4] at hp
    by_contra hge
    simp [flatIndex, hge] at hp
  obtain ⟨_, _, _, _, _, b4, _⟩ := e6 b hb i' hik'
  have : y = sc b i' := by
    obtain ⟨p, hp, hy⟩ := hy
    obtain ⟨p', hp', hy'⟩ := b4
    rw [hp] at hp'
    injection hp' with hp'
    subst hp'
    rw [hy] at hy'
    injection hy' with hy'
    injection hy' with hy'
  rw [this]
  exact hmax i' hik'

/-- The demo: the larger support wins on both bootstraps. -/
example : ∃ i x, demoSt.rpMax[1]? = some i ∧ HasAt demoSt.scores [1, i] x ∧
    ∀ i' y, HasAt demoSt.scores [1, i'] y → y ≤ x := by
  obtain ⟨k, _, _, h⟩ := C15_chosen_is_first_maximum (n := 2) (by decide) demo_good.2
    demo_wellShaped _ _ _ demo_runs 0
  obtain ⟨i, x, h1, _, h2, h3⟩ := h 1 (by decide)
  exact ⟨i, x, h1, h2, fun i' y hy => (h3 i' y hy).1⟩

end Verif.Fit
