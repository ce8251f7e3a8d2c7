import Mathlib.Data.Rat.Sqrt
import Mathlib.Tactic.Linarith
import Mathlib.Tactic.Ring
import Mathlib.Tactic.NormNum
import Mathlib.Tactic.Positivity
import Verif.Lemmas.Owlqn
import Verif.Lemmas.LineSearch
/-!
The line searches of the minimiser (C65, C80).
-/
namespace Verif.Lbfgs
open Finset Spec
variable {n : Nat} {σ K : Type} [Field K] [LinearOrder K] [IsStrictOrderedRing K]

/-- C65.  Backtracking: a reported success means that the returned point is the evaluated point on the
    ray with a positive step, satisfying sufficient decrease and, for `'wolfe'`, the curvature condition,
    for `'strongwolfe'` also the strong one; the returned number is the number of evaluations, and there
    are never more than `max_linesearch` of them. -/
theorem C65_backtracking (env : Env n σ K) (p : Par K) (x : Fin n → K) (f : K) (g s : Fin n → K) (stp : K)
    (hm : 0 < p.maxLinesearch) :
    let r := backtracking env p x f g s stp
    (r.trials.length : Int) ≤ p.maxLinesearch ∧
    (0 ≤ r.ret →
      r.ret = r.trials.length ∧ r.trials.head? = some r.x ∧
      0 < r.step ∧ (∀ i, r.x i = x i + r.step * s i) ∧ env.eval r.x = (r.f, r.g) ∧
      Armijo p.ftol f (dot g s) r.step r.f ∧
      (p.linesearch = LS_WOLFE → Wolfe p.wolfe (dot g s) (dot r.g s)) ∧
      (p.linesearch = LS_STRONG → Wolfe p.wolfe (dot g s) (dot r.g s) ∧
        StrongWolfe p.wolfe (dot g s) (dot r.g s))) := by
  simp only [backtracking, vecdot_eq]
  by_cases h0 : stp ≤ 0
  · rw [if_pos h0]
    exact ⟨by simpa using hm.le, fun h => absurd (show (0 : Int) ≤ ERR_INVALIDPARAMETERS from h) (by decide)⟩
  rw [if_neg h0]
  by_cases h1 : 0 < dot g s
  · rw [if_pos h1]
    exact ⟨by simpa using hm.le, fun h => absurd (show (0 : Int) ≤ ERR_INCREASEGRADIENT from h) (by decide)⟩
  rw [if_neg h1]
  have := btLoop_spec env p x s f (dot g s) p.maxLinesearch.toNat 0 stp [] (not_le.1 h0)
    (by omega) (by simp; omega)
  obtain ⟨_, hlen, hx, hg, _⟩ := this
  refine ⟨by simp at hlen; omega, fun h => ?_⟩
  obtain ⟨hr, hb⟩ := hg h
  refine ⟨by simpa using hr, hx, hb.pos, hb.pt, hb.val, ?_, fun hl => hb.wolfe (by rw [hl]; decide),
    fun hl => ⟨hb.wolfe (by rw [hl]; decide), ?_⟩⟩
  · have := hb.armijo
    unfold Armijo
    linarith
  · have h2 := hb.wolfe (by rw [hl]; decide)
    have h3 := hb.strong (by rw [hl]; decide) (by rw [hl]; decide)
    unfold StrongWolfe
    rw [abs_of_nonpos (not_lt.1 h1), abs_le]
    constructor <;> linarith

/-- `F x = x² / 2`. -/
def exSq : Env 1 Unit ℚ :=
  ⟨Rat.sqrt, fun x => (x 0 ^ 2 / 2, fun _ => x 0), fun s _ _ _ _ _ _ _ _ => (0, s)⟩

/-- `x²/2` from 8 along -8 with too long and too short steps: strong Wolfe shrinks and extends. -/
example : let r := backtracking exSq ⟨5, 0, 0, 0, 0, LS_STRONG, 20, 0, 100, 1/4, 1/2, 9/10, 0, 0, 0, 1⟩ ![8] 32 ![8] ![-8] 3;
    r.ret = 2 ∧ r.step = 3/2 ∧ r.x 0 = -4 := by decide +kernel

/-- C65.  Orthant-wise backtracking: a reported success means sufficient decrease of the penalised
    objective along the step actually taken (with the pseudo-gradient), within the evaluation limit. -/
theorem C65_owlqn_partial (env : Env n σ K) (p : Par K) (x : Fin n → K) (f : K) (g pg s : Fin n → K)
    (stp : K) (hm : 0 < p.maxLinesearch) :
    let r := backtrackingOwlqn env p x f g pg s stp
    (r.trials.length : Int) ≤ p.maxLinesearch ∧
    (0 ≤ r.ret →
      r.ret = r.trials.length ∧ r.trials.head? = some r.x ∧ 0 < r.step ∧
      r.f = (env.eval r.x).1 + p.c * l1 p.start p.stop r.x ∧ r.g = (env.eval r.x).2 ∧
      r.f ≤ f + p.ftol * dot pg (fun i => r.x i - x i)) := by
  simp only [backtrackingOwlqn]
  by_cases h0 : stp ≤ 0
  · rw [if_pos h0]
    exact ⟨by simpa using hm.le, fun h => absurd (show (0 : Int) ≤ ERR_INVALIDPARAMETERS from h) (by decide)⟩
  rw [if_neg h0]
  obtain ⟨_, hlen, hx, hf, hg, hp, _, hok, _⟩ := owlqnLoop_spec env p x pg
    (fun i => if feq (x i) 0 then -pg i else x i) s f p.maxLinesearch.toNat 0 stp [] (not_le.1 h0)
    (by omega) (by simp; omega)
  refine ⟨by simp at hlen; omega, fun h => ?_⟩
  obtain ⟨hr, hb⟩ := hok h
  refine ⟨by simpa using hr, hx, hp, hf, hg, ?_⟩
  have hc : dot pg (fun i => (owlqnLoop env p x pg (fun i => if feq (x i) 0 then -pg i else x i) s f
      p.maxLinesearch.toNat 0 stp []).x i - x i) = dot (fun i => (owlqnLoop env p x pg
      (fun i => if feq (x i) 0 then -pg i else x i) s f p.maxLinesearch.toNat 0 stp []).x i - x i) pg := by
    unfold dot
    exact Finset.sum_congr rfl fun i _ => mul_comm _ _
  rw [hc]
  exact hb

/-- `F x = -x` with penalty `|x| / 2`, used below. -/
def exLin : Env 1 Unit ℚ := ⟨id, fun x => (- x 0, fun _ => -1), fun s _ _ _ _ _ _ _ _ => (0, s)⟩

/-- Parameters of the counterexample: `line_search='wolfe'`, `ftol=1e-4`, `wolfe=0.9`. -/
def exLinPar : Par ℚ := ⟨5, 0, 0, 0, 0, LS_WOLFE, 20, 0, 100, 1/10000, 9/10, 9/10, 0, 1/2, 0, 1⟩

/-- C65 is false for penalised problems with `line_search='wolfe'` (the only search they may use): the
    curvature condition is not checked.  Minimising `-x + |x|/2` from 0, the first trial is accepted
    although the slope has not changed at all. -/
theorem C65_owlqn_negation :
    ¬ ∀ (env : Env 1 Unit ℚ) (p : Par ℚ) (x : Fin 1 → ℚ) (stp : ℚ), p.linesearch = LS_WOLFE →
      let g := (env.eval x).2
      let pg := pseudoGradient x g p.c p.start p.stop
      let s : Fin 1 → ℚ := fun i => - pg i
      let r := backtrackingOwlqn env p x ((env.eval x).1 + p.c * l1 p.start p.stop x) g pg s stp
      0 ≤ r.ret →
        Wolfe p.wolfe (dot pg s) (dot (pseudoGradient r.x r.g p.c p.start p.stop) s) := by
  intro h
  have h1 := h exLin exLinPar (fun _ => 0) 1 rfl (by decide +kernel)
  revert h1
  unfold Wolfe
  decide +kernel

example :
    let r := backtrackingOwlqn exLin exLinPar (fun _ => 0) 0 (fun _ => -1) (fun _ => -1/2) (fun _ => 1/2) 1
    r.ret = 1 ∧ r.x 0 = 1/2 ∧ r.f = -1/4 := by decide +kernel

/-- C65.  More-Thuente: a reported success means sufficient decrease and the strong curvature condition
    with `gtol`, and fewer than `max_linesearch` evaluations. -/
theorem C65_morethuente (env : Env n σ K) (p : Par K) (x : Fin n → K) (f : K) (g s : Fin n → K) (stp : K)
    (hm : 0 < p.maxLinesearch) (hmin : 0 ≤ p.minStep) (hmax : p.minStep ≤ p.maxStep) :
    let r := moreThuente env p x f g s stp
    (r.trials.length : Int) ≤ p.maxLinesearch ∧
    (0 ≤ r.ret →
      r.ret = r.trials.length ∧ r.trials.head? = some r.x ∧
      0 ≤ r.step ∧ (∀ i, r.x i = x i + r.step * s i) ∧ env.eval r.x = (r.f, r.g) ∧
      Armijo p.ftol f (dot g s) r.step r.f ∧ StrongWolfe p.gtol (dot g s) (dot r.g s)) := by
  simp only [moreThuente, vecdot_eq]
  by_cases h0 : stp ≤ 0
  · rw [if_pos h0]
    exact ⟨by simpa using hm.le, fun h => absurd (show (0 : Int) ≤ ERR_INVALIDPARAMETERS from h) (by decide)⟩
  rw [if_neg h0]
  by_cases h1 : 0 < dot g s
  · rw [if_pos h1]
    exact ⟨by simpa using hm.le, fun h => absurd (show (0 : Int) ≤ ERR_INCREASEGRADIENT from h) (by decide)⟩
  rw [if_neg h1]
  obtain ⟨_, hlen, hx, hpt, hv, hok, _⟩ := mtLoop_spec env p x s f (dot g s) hmin hmax
    p.maxLinesearch.toNat 0 ⟨0, f, dot g s, 0, f, dot g s, stp, false⟩ true (p.maxStep - p.minStep)
    (const 2 1 * (p.maxStep - p.minStep)) 0 [] (le_refl _) (by omega) (by simp; omega)
  refine ⟨by simp at hlen; omega, fun h => ?_⟩
  obtain ⟨hr, _, hb⟩ := hok h
  refine ⟨by simpa using hr, hx, hb.nonneg, hpt, hv, ?_, ?_⟩
  · have := hb.armijo
    unfold Armijo
    linarith
  · unfold StrongWolfe
    rw [abs_of_nonpos (not_lt.1 h1)]
    exact hb.strong

/-- `x²/2` from 8 along -8, with a first step that is too long: the interpolation finds the minimiser. -/
example : let r := moreThuente exSq ⟨5, 0, 0, 0, 0, LS_MORETHUENTE, 20, 0, 100, 1/4, 1/2, 1/2, 0, 0, 0, 1⟩ ![8] 32 ![8] ![-8] 3;
    r.ret = 2 ∧ r.step = 1 ∧ r.x 0 = 0 := by decide +kernel

/-- C80.  Backtracking reports a failure of its trials only if the last one really violates the
    conditions; in particular a satisfactory step found at the last permitted trial is accepted. -/
theorem C80_backtracking (env : Env n σ K) (p : Par K) (x : Fin n → K) (f : K) (g s : Fin n → K) (stp : K)
    (hm : 0 < p.maxLinesearch) (hs : 0 < stp) (hd : dot g s ≤ 0) :
    let r := backtracking env p x f g s stp
    env.eval r.x = (r.f, r.g) ∧
    (0 ≤ r.ret ↔ Armijo p.ftol f (dot g s) r.step r.f ∧
      (p.linesearch ≠ LS_ARMIJO → Wolfe p.wolfe (dot g s) (dot r.g s)) ∧
      (p.linesearch ≠ LS_ARMIJO → p.linesearch ≠ LS_WOLFE →
        StrongWolfe p.wolfe (dot g s) (dot r.g s))) := by
  simp only [backtracking, vecdot_eq]
  rw [if_neg (not_le.2 hs), if_neg (not_lt.2 hd)]
  obtain ⟨_, _, _, hok, hbad⟩ := btLoop_spec env p x s f (dot g s) p.maxLinesearch.toNat 0 stp [] hs
    (by omega) (by simp; omega)
  have hcond : btCond p s f (dot g s) (btLoop env p x s f (dot g s) p.maxLinesearch.toNat 0 stp []) ↔
      Armijo p.ftol f (dot g s) (btLoop env p x s f (dot g s) p.maxLinesearch.toNat 0 stp []).step
        (btLoop env p x s f (dot g s) p.maxLinesearch.toNat 0 stp []).f ∧
      (p.linesearch ≠ LS_ARMIJO → Wolfe p.wolfe (dot g s)
        (dot (btLoop env p x s f (dot g s) p.maxLinesearch.toNat 0 stp []).g s)) ∧
      (p.linesearch ≠ LS_ARMIJO → p.linesearch ≠ LS_WOLFE → StrongWolfe p.wolfe (dot g s)
        (dot (btLoop env p x s f (dot g s) p.maxLinesearch.toNat 0 stp []).g s)) := by
    generalize btLoop env p x s f (dot g s) p.maxLinesearch.toNat 0 stp [] = r
    unfold btCond Armijo Wolfe StrongWolfe
    rw [abs_of_nonpos hd]
    constructor
    · rintro ⟨h1, h2, h3⟩
      refine ⟨by linarith, h2, fun ha hw => abs_le.2 ⟨by linarith [h2 ha], by linarith [h3 ha hw]⟩⟩
    · rintro ⟨h1, h2, h3⟩
      exact ⟨by linarith, h2, fun ha hw => by linarith [(abs_le.1 (h3 ha hw)).2]⟩
  rw [← hcond]
  rcases lt_or_ge (btLoop env p x s f (dot g s) p.maxLinesearch.toNat 0 stp []).ret 0 with h | h
  · exact ⟨(hbad h).2.1, fun h' => absurd h (not_lt.2 h'), fun hc => absurd hc (hbad h).2.2⟩
  · obtain ⟨_, hb⟩ := hok h
    exact ⟨hb.val, fun _ => ⟨hb.armijo, hb.wolfe, hb.strong⟩, fun _ => h⟩

/-- With a single permitted trial the exact minimiser is accepted. -/
example : (backtracking exSq ⟨5, 0, 0, 0, 0, LS_STRONG, 1, 0, 100, 1/4, 1/2, 9/10, 0, 0, 0, 1⟩ ![8] 32 ![8] ![-8] 1).ret = 1 := by
  decide +kernel

/-- C80, orthant-wise: a failure is reported only if the last trial violates sufficient decrease. -/
theorem C80_owlqn (env : Env n σ K) (p : Par K) (x : Fin n → K) (f : K) (g pg s : Fin n → K) (stp : K)
    (hm : 0 < p.maxLinesearch) (hs : 0 < stp) :
    let r := backtrackingOwlqn env p x f g pg s stp
    0 ≤ r.ret ↔ (env.eval r.x).1 + p.c * l1 p.start p.stop r.x ≤
      f + p.ftol * dot (fun i => r.x i - x i) pg := by
  simp only [backtrackingOwlqn]
  rw [if_neg (not_le.2 hs)]
  obtain ⟨_, _, _, hf, _, _, _, hok, hbad⟩ := owlqnLoop_spec env p x pg
    (fun i => if feq (x i) 0 then -pg i else x i) s f p.maxLinesearch.toNat 0 stp [] hs
    (by omega) (by simp; omega)
  rw [← hf]
  constructor
  · exact fun h => (hok h).2
  · intro h
    by_contra hlt
    exact absurd h (not_le.2 (hbad (not_le.1 hlt)).2)

example : (backtrackingOwlqn exLin { exLinPar with maxLinesearch := 1 } (fun _ => 0) 0 (fun _ => -1)
    (fun _ => -1/2) (fun _ => 1/2) 1).ret = 1 := by decide +kernel

/-- C80, More-Thuente: a success always needs fewer than `max_linesearch` trials. -/
theorem C80_morethuente_partial (env : Env n σ K) (p : Par K) (x : Fin n → K) (f : K) (g s : Fin n → K)
    (stp : K) (hm : 0 < p.maxLinesearch) (hmin : 0 ≤ p.minStep) (hmax : p.minStep ≤ p.maxStep)
    (h : 0 ≤ (moreThuente env p x f g s stp).ret) :
    (moreThuente env p x f g s stp).ret < p.maxLinesearch := by
  simp only [moreThuente, vecdot_eq] at h ⊢
  by_cases h0 : stp ≤ 0
  · rw [if_pos h0]
    exact lt_trans (show ERR_INVALIDPARAMETERS < 0 by decide) hm
  rw [if_neg h0] at h ⊢
  by_cases h1 : 0 < dot g s
  · rw [if_pos h1]
    exact lt_trans (show ERR_INCREASEGRADIENT < 0 by decide) hm
  rw [if_neg h1] at h ⊢
  exact ((mtLoop_spec env p x s f (dot g s) hmin hmax
    p.maxLinesearch.toNat 0 ⟨0, f, dot g s, 0, f, dot g s, stp, false⟩ true (p.maxStep - p.minStep)
    (const 2 1 * (p.maxStep - p.minStep)) 0 [] (le_refl _) (by omega) (by simp; omega)).2.2.2.2.2.1 h).2.1

/-- C80 is false for the default search: with `max_linesearch=1` (a valid value) it fails for every
    objective, even when the single trial is the exact minimiser. -/
theorem C80_negation :
    ¬ ∀ (env : Env 1 Unit ℚ) (p : Par ℚ) (x s : Fin 1 → ℚ) (stp : ℚ), 0 < p.maxLinesearch →
      0 < stp → dot (env.eval x).2 s < 0 →
      let y : Fin 1 → ℚ := fun i => x i + stp * s i
      Armijo p.ftol (env.eval x).1 (dot (env.eval x).2 s) stp (env.eval y).1 →
      StrongWolfe p.gtol (dot (env.eval x).2 s) (dot (env.eval y).2 s) →
      p.minStep < stp → stp < p.maxStep →
      0 ≤ (moreThuente env p x (env.eval x).1 (env.eval x).2 s stp).ret := by
  intro h
  have h1 := h exSq
    ⟨5, 0, 0, 0, 0, LS_MORETHUENTE, 1, 0, 100, 1/4, 1/2, 1/2, 0, 0, 0, 1⟩ ![8] ![-8] 1
  revert h1
  unfold Armijo StrongWolfe
  decide +kernel

end Verif.Lbfgs
