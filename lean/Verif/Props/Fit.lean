import Verif.Lemmas.FitSpmd
import Verif.Lemmas.Exec
import Mathlib.Data.Rat.Defs
import Mathlib.Algebra.Order.Field.Rat
/-!
C08-C12: the distributed fit.  `fit env n r g s` is what process `r` of `n` runs; `fit env 1 0 g s`
is the serial fit.
-/
namespace Verif.Fit
open Verif.Py Verif.MpiUtils Verif.Intersection

variable {K G S M RP : Type} {n : Nat}

/-! ### A concrete estimator used in the examples -/

/-- Two bootstraps of each kind, two features, two regularization parameters, and a solver that
    continues from its previous solution (warm start) unless reset. -/
def demo : Env ℚ Nat ℚ (List ℚ) ℚ where
  nBootsSel := 2
  nBootsEst := 2
  nFeat := 2
  outDim := 1
  shared := true
  glm := false
  thresholds := [2]
  regParams := [1, 1 / 2]
  draw _ g := .ok (⟨[g, g + 1], [g + 2]⟩, g + 3)
  fitSel s rp tr := .ok (s + rp + tr.length)
  selCoef s := [s, s - 3]
  reset _ := 0
  fitEst mask tr := .ok (List.replicate (mask.count true) (((tr.headD 0 : Nat) : ℚ) + 1))
  estCoef m := m
  score m _ sp := .ok (m.sum + sp.test.length)
  fitEmpty _ := .ok []
  scoreEmpty _ _ := .ok 0
  fitIntercept _ := .ok ⟨[1], .f64, [.f 7]⟩
  post c i := .ok (c, i)
  nan := 0

/-- What the serial fit of `demo` with generator 0 computes. -/
def demoSt : FitState ℚ where
  supports := .d2 [[true, false], [true, true]]
  estimates := ⟨[2, 2, 2], .f64, [.f 7, .f 0, .f 7, .f 7, .f 10, .f 0, .f 10, .f 10]⟩
  scores := ⟨[2, 2], .f64, [.f 8, .f 15, .f 11, .f 21]⟩
  rpMax := [1, 1]
  coef := ⟨[1, 2], .f64, [.f (17 / 2), .f (17 / 2)]⟩
  intercept := ⟨[1], .f64, [.f 7]⟩

theorem demo_serial (s : ℚ) : fit demo 1 0 0 s = .ret demoSt := by
  have h : (fit demo 1 0 0 s).outcome = (fit demo 1 0 0 0).outcome := rfl
  exact ret_of_outcome (h.trans (by decide +kernel))

theorem demo_good : Forgets demo ∧ GoodIntercept demo := by
  refine ⟨fun _ _ _ _ => rfl, fun c a h => ?_⟩
  injection h with h
  subst h
  decide

/-! ### C08 -/

/-- **C08**.  With at most as many processes as selection bootstraps, every process of the
    distributed fit ends with exactly the state of the serial fit that uses process 0's random
    generator: supports, estimates, scores, chosen supports, coefficients, intercept.  The solver
    may warm-start from its previous solution (`Forgets` only asks that the reset between
    bootstraps puts it in a fixed state); what the solvers of the other processes did before and
    the generators of the other processes do not matter. -/
theorem C08_distributed_eq_serial [LinearOrder K] [Field K] {env : Env K G S M RP} (hn : 1 < n)
    (hle : n ≤ env.nBootsSel) (hF : Forgets env) (hI : GoodIntercept env) (g : Fin n → G) (s0 : S)
    (s : Fin n → S) (st : FitState K) (h : fit env 1 0 (g ⟨0, by omega⟩) s0 = .ret st) :
    Runs (fun r : Fin n => fit env n r.val (g r) (s r)) (fun _ => .ok st) :=
  runs_fit_of_selection hn hI (fun _ _ _ h1 h2 => runs_selection hn hle hF s h1 h2) h

/-- Two processes with different generators and used solvers. -/
example : Runs (fun r : Fin 2 => fit demo 2 r.val (3 * r.val) (5 + r.val)) (fun _ => .ok demoSt) :=
  C08_distributed_eq_serial (env := demo) (by decide) (by decide) demo_good.1 demo_good.2
    (fun r => 3 * r.val) 0 (fun r => 5 + r.val) demoSt (demo_serial 0)

/-! ### C09 -/

/-- `demo` with a second coefficient that vanishes for a cold start at the second parameter only. -/
def demoWarm : Env ℚ Nat ℚ (List ℚ) ℚ := { demo with selCoef := fun s => [s, s - 5 / 2] }

/-- **C09** is false for warm-starting solvers: with more processes than selection bootstraps the
    tasks are (bootstrap, parameter) pairs, so a process that starts in the middle of a
    regularization path has nothing to warm-start from, and the distributed fit returns other
    supports than the serial one (although the solver is reset between bootstraps). -/
theorem C09_negation : Forgets demoWarm ∧ GoodIntercept demoWarm ∧ ∃ st st' : FitState ℚ,
    fit demoWarm 1 0 0 0 = .ret st ∧
    Runs (fun r : Fin 3 => fit demoWarm 3 r.val 0 0) (fun _ => .ok st') ∧
    st.supports = .d2 [[true, true]] ∧ st'.supports = .d2 [[true, false], [true, true]] := by
  refine ⟨fun _ _ _ _ => rfl, demo_good.2,
    ⟨.d2 [[true, true]], ⟨[2, 1, 2], .f64, [.f 7, .f 7, .f 10, .f 10]⟩, ⟨[2, 1], .f64, [.f 15, .f 21]⟩,
      [0, 0], ⟨[1, 2], .f64, [.f (17 / 2), .f (17 / 2)]⟩, ⟨[1], .f64, [.f 7]⟩⟩, demoSt,
    ret_of_outcome (by decide +kernel), ?_, rfl, rfl⟩
  refine exec_runs (fuel := 100) (l := [.ok demoSt, .ok demoSt, .ok demoSt]) (by decide +kernel) _ ?_
  decide +kernel

/-- **C09** for solvers that do not depend on what they were fitted on before (no warm start): for
    every number of processes, also more than there are bootstraps, the distributed fit gives the
    result of the serial fit.  Missing: warm-starting solvers (`C09_negation`; C08 covers them when
    there are enough bootstraps). -/
theorem C09_distributed_eq_serial_partial [LinearOrder K] [Field K] {env : Env K G S M RP}
    (hn : 1 < n) (hF : HistoryFree env) (hI : GoodIntercept env) (g : Fin n → G) (s0 : S)
    (s : Fin n → S) (st : FitState K) (h : fit env 1 0 (g ⟨0, by omega⟩) s0 = .ret st) :
    Runs (fun r : Fin n => fit env n r.val (g r) (s r)) (fun _ => .ok st) := by
  refine runs_fit_of_selection hn hI (fun b1 B k h1 h2 => ?_) h
  by_cases hle : n ≤ env.nBootsSel
  · exact runs_selection hn hle hF.forgets s h1 h2
  · exact runs_selection_fine hn (by omega) hF s h1 h2

/-- `demo` without warm start. -/
def demoCold : Env ℚ Nat ℚ (List ℚ) ℚ :=
  { demo with fitSel := fun _ rp tr => .ok (rp + tr.length) }

theorem demoCold_serial : fit demoCold 1 0 0 0 = .ret demoSt := ret_of_outcome (by decide +kernel)

/-- Seven processes for two bootstraps and two parameters: three processes have nothing to do. -/
example : Runs (fun r : Fin 7 => fit demoCold 7 r.val r.val 4) (fun _ => .ok demoSt) :=
  C09_distributed_eq_serial_partial (env := demoCold) (by decide) (fun _ _ _ _ => rfl) demo_good.2
    (fun r => r.val) 0 (fun _ => 4) demoSt demoCold_serial

/-! ### C10 -/

/-- **C10**.  For any number of processes, any solver (warm start or not) and any data: if the
    distributed fit completes without exception, all processes hold the same fitted state. -/
theorem C10_all_processes_agree [LinearOrder K] [Field K] {env : Env K G S M RP}
    (hI : GoodIntercept env) (g : Fin n → G) (s : Fin n → S) (st : Fin n → FitState K)
    (h : Runs (fun r : Fin n => fit env n r.val (g r) (s r)) fun r => .ok (st r)) (r r' : Fin n) :
    st r = st r' :=
  fit_agree hI h r r'

/-- The hypotheses are met, e.g., by the run of `C09_negation`, which differs from the serial fit. -/
example : ∃ st : Fin 3 → FitState ℚ,
    Runs (fun r : Fin 3 => fit demoWarm 3 r.val 0 0) (fun r => .ok (st r)) ∧ st 0 = st 2 := by
  obtain ⟨_, hI, st, st', _, h, _⟩ := C09_negation
  exact ⟨fun _ => st', h, C10_all_processes_agree hI _ _ _ h 0 2⟩

/-! ### C11 -/

/-- **C11**.  Whatever the data, the solvers and the number of processes, and in whichever order
    the processes enter their collectives: the schedule ends after finitely many moves, and in
    every configuration it can reach, unless some process has raised, either all processes have
    returned or the schedule can continue. -/
theorem C11_no_deadlock [LinearOrder K] [Field K] (env : Env K G S M RP) (hn : 0 < n)
    (g : Fin n → G) (s : Fin n → S) :
    (¬ ∃ f : Nat → Config K (FitState K) n,
      f 0 = start (fun r : Fin n => fit env n r.val (g r) (s r)) ∧ ∀ i, SStep (f i) (f (i + 1))) ∧
    ∀ c, Reaches (start fun r : Fin n => fit env n r.val (g r) (s r)) c →
      Raised c ∨ AllReturned c ∨ ∃ c', SStep c c' := by
  refine ⟨no_infinite hn, fun c hc => ?_⟩
  have h0 : Aligned (start fun r : Fin n => fit env n r.val (g r) (s r)) :=
    ⟨fitTags env n, fun r => ⟨follows_fit env n r.val (g r) (s r), by simp [start]⟩⟩
  rcases aligned_reaches (.inr h0) hc with h | h
  · exact .inl h
  · exact aligned_progress hn h

/-- **C11**, outcome: whenever the distributed fit has a complete run (C08, C09), every schedule
    that cannot continue has reached exactly that outcome. -/
theorem C11_every_schedule_same_outcome [LinearOrder K] [Field K] (env : Env K G S M RP)
    (hn : 0 < n) (g : Fin n → G) (s : Fin n → S) (out : Fin n → Except PyErr (FitState K))
    (h : Runs (fun r : Fin n => fit env n r.val (g r) (s r)) out)
    (c : Config K (FitState K) n)
    (hc : Reaches (start fun r : Fin n => fit env n r.val (g r) (s r)) c)
    (hend : ¬ ∃ c', SStep c c') (r : Fin n) : (c r).1.outcome = some (out r) := by
  have hR := runs_reaches hc (out := out) h
  cases hR with
  | done hd => exact hd r
  | step ops k tag hn' hW htag _ =>
    exfalso
    apply hend
    by_cases hall : ∀ r, (c r).2 = true
    · exact ⟨_, .sync ops k tag hn (fun r => Prod.ext (hW r) (hall r)) htag⟩
    · push Not at hall
      obtain ⟨r, hr⟩ := hall
      exact ⟨_, .enter r (ops r) (k r) (Prod.ext (hW r) (by simpa using hr))⟩

/-- A reachable configuration in the middle of a fit: process 1 is the first to enter. -/
example : ∃ c, SStep (start fun r : Fin 2 => fit demo 2 r.val 0 0) c ∧ ¬ AllReturned c := by
  refine ⟨_, .enter 1 _ _ rfl, fun h => ?_⟩
  obtain ⟨a, ha⟩ := h 0
  cases ha

/-! ### C12 -/

/-- **C12** is false: whenever drawing the first split fails (for example because a stratification
    group is too small), process 0 raises and, for any number of processes greater than one, all
    others wait for ever in the broadcast of the split. -/
theorem C12_negation [LinearOrder K] [Field K] (env : Env K G S M RP) (hn : 1 < n)
    (hb : 0 < env.nBootsSel) (g : Fin n → G) (s : Fin n → S) (e : PyErr)
    (hd : env.draw false (g ⟨0, by omega⟩) = .error e) :
    Stuck fun r : Fin n => fit env n r.val (g r) (s r) := by
  obtain ⟨k, hk⟩ : ∃ k, env.nBootsSel = k + 1 := ⟨env.nBootsSel - 1, by omega⟩
  refine stuck_of_mixed ⟨0, by omega⟩ ⟨1, hn⟩ ?_ ?_
  · unfold fit
    simp only [hk, drawBoots, gt_iff_lt, hn, if_true, hd]
    simp [Prog.lift, bind, Prog.outcome]
  · unfold fit
    simp only [hk, drawBoots, gt_iff_lt, hn, if_true]
    simp [bcastFromRoot, checkValid, Prog.lift, bind, Prog.bind, Prog.outcome, Prog.call]

/-- The serial fit does raise when drawing a split fails: the part of **C12** that holds.  Missing:
    more than one process (`C12_negation`). -/
theorem C12_serial_partial [LinearOrder K] [Field K] (env : Env K G S M RP)
    (hb : 0 < env.nBootsSel) (g : G) (s : S) (e : PyErr) (hd : env.draw false g = .error e) :
    fit env 1 0 g s = .fail e := by
  obtain ⟨k, hk⟩ : ∃ k, env.nBootsSel = k + 1 := ⟨env.nBootsSel - 1, by omega⟩
  unfold fit
  rw [hk, drawBoots_serial]
  simp only [drawList, hd]
  rfl

/-- `demo` with a split that cannot be drawn. -/
def demoBad : Env ℚ Nat ℚ (List ℚ) ℚ := { demo with draw := fun _ _ => .error .valueError }

example : (Stuck fun r : Fin 4 => fit demoBad 4 r.val 0 0) ∧
    fit demoBad 1 0 0 0 = .fail .valueError :=
  ⟨C12_negation demoBad (by decide) (by decide) _ _ .valueError rfl,
    C12_serial_partial demoBad (by decide) _ _ .valueError rfl⟩

end Verif.Fit
