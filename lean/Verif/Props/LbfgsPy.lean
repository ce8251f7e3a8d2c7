import Verif.Model.LbfgsPy
import Verif.Lemmas.LineSearch
import Verif.Spec.LbfgsPy
import Verif.Lemmas.LbfgsPy
/-!
The Python wrapper of the minimiser: outcomes, validation, codes, messages (C70, C71, C72, C81, C82).
-/
namespace Verif.Lbfgs
open Finset Spec
variable {n : Nat} {σ K : Type} [Field K] [LinearOrder K] [IsStrictOrderedRing K]

/-! ### C72 -/

/-- C72.  Header and wrapper give every name the same value; so do the two lists of line searches. -/
theorem C72_agree :
    (∀ name, (cEnum 0 headerEnum).lookup name = (cEnum 0 wrapperEnum).lookup name) ∧
    ∀ name, (cEnum 0 headerSearch).lookup name = (cEnum 0 wrapperSearch).lookup name :=
  ⟨fun _ => rfl, fun _ => rfl⟩

/-- C72.  All error codes are negative and distinct from each other and from the other codes. -/
theorem C72_distinct :
    (∀ e ∈ cEnum 0 headerEnum, e.1.startsWith "LBFGSERR_" = true → e.2 < 0) ∧
    ∀ e ∈ cEnum 0 headerEnum, ∀ e' ∈ cEnum 0 headerEnum, e.2 = e'.2 → e.1 = e'.1 ∨
      (e.1 ∈ ["LBFGS_SUCCESS", "LBFGS_CONVERGENCE"] ∧ e'.1 ∈ ["LBFGS_SUCCESS", "LBFGS_CONVERGENCE"]) := by
  constructor <;> decide +kernel

/-- C72.  Every error code has a message, and the table of messages has no other keys. -/
theorem C72_messages :
    (∀ e ∈ cEnum 0 headerEnum, e.1.startsWith "LBFGSERR_" = true → (message e.2).isSome = true) ∧
    ∀ r, (message r).isSome = true → ∃ e ∈ cEnum 0 headerEnum, e.1.startsWith "LBFGSERR_" = true ∧ e.2 = r := by
  constructor
  · decide +kernel
  · intro r hr
    have hm : r ∈ (errorMessages.map fun e => (wcode e.1, e.2)).map Prod.fst := by
      unfold message at hr
      rw [Option.isSome_iff_exists] at hr
      obtain ⟨m, hm⟩ := hr
      have := List.lookup_eq_some_iff.1 hm
      obtain ⟨l1, l2, h, _⟩ := this
      rw [h]; simp
    have : ∀ r ∈ (errorMessages.map fun e => (wcode e.1, e.2)).map Prod.fst,
        ∃ e ∈ cEnum 0 headerEnum, e.1.startsWith "LBFGSERR_" = true ∧ e.2 = r := by decide +kernel
    exact this r hm

example : (cEnum 0 headerEnum).lookup "LBFGSERR_INCREASEGRADIENT" = some (-994) ∧
    message (-997) = some "The algorithm routine reaches the maximum number of iterations." := by
  decide +kernel

/-- C72.  The messages are the descriptions in the header, which cover all error codes. -/
theorem C72_texts :
    (∀ e ∈ cEnum 0 headerEnum, e.1.startsWith "LBFGSERR_" = true →
      ∃ d ∈ descriptions, d.1 = e.1 ∧ message e.2 = some (String.join d.2)) ∧
    ∀ d ∈ descriptions, ∀ d' ∈ descriptions, d.1 = d'.1 → d = d' := by
  constructor <;> decide +kernel

example : message (-1000) = some "The line-search step became smaller than min_step." := by decide +kernel

/-- C72.  The codes used in the model of the C functions are those of the header. -/
theorem C72_model :
    [("LBFGS_SUCCESS", SUCCESS), ("LBFGS_STOP", STOP), ("LBFGS_ALREADY_MINIMIZED", ALREADY_MINIMIZED),
     ("LBFGSERR_LOGICERROR", ERR_LOGIC), ("LBFGSERR_INVALID_N", ERR_N),
     ("LBFGSERR_INVALID_EPSILON", ERR_EPSILON), ("LBFGSERR_INVALID_TESTPERIOD", ERR_TESTPERIOD),
     ("LBFGSERR_INVALID_DELTA", ERR_DELTA), ("LBFGSERR_INVALID_LINESEARCH", ERR_LINESEARCH),
     ("LBFGSERR_INVALID_MINSTEP", ERR_MINSTEP), ("LBFGSERR_INVALID_MAXSTEP", ERR_MAXSTEP),
     ("LBFGSERR_INVALID_FTOL", ERR_FTOL), ("LBFGSERR_INVALID_WOLFE", ERR_WOLFE),
     ("LBFGSERR_INVALID_GTOL", ERR_GTOL), ("LBFGSERR_INVALID_XTOL", ERR_XTOL),
     ("LBFGSERR_INVALID_MAXLINESEARCH", ERR_MAXLINESEARCH),
     ("LBFGSERR_INVALID_ORTHANTWISE", ERR_ORTHANTWISE),
     ("LBFGSERR_INVALID_ORTHANTWISE_START", ERR_ORTHANTWISE_START),
     ("LBFGSERR_INVALID_ORTHANTWISE_END", ERR_ORTHANTWISE_END),
     ("LBFGSERR_OUTOFINTERVAL", ERR_OUTOFINTERVAL), ("LBFGSERR_INCORRECT_TMINMAX", ERR_TMINMAX),
     ("LBFGSERR_ROUNDING_ERROR", ERR_ROUNDING), ("LBFGSERR_MINIMUMSTEP", ERR_MINIMUMSTEP),
     ("LBFGSERR_MAXIMUMSTEP", ERR_MAXIMUMSTEP), ("LBFGSERR_MAXIMUMLINESEARCH", ERR_MAXIMUMLINESEARCH),
     ("LBFGSERR_MAXIMUMITERATION", ERR_MAXIMUMITERATION), ("LBFGSERR_WIDTHTOOSMALL", ERR_WIDTH),
     ("LBFGSERR_INVALIDPARAMETERS", ERR_INVALIDPARAMETERS),
     ("LBFGSERR_INCREASEGRADIENT", ERR_INCREASEGRADIENT)].all
      (fun e => decide ((cEnum 0 headerEnum).lookup e.1 = some e.2)) = true ∧
    [("LBFGS_LINESEARCH_MORETHUENTE", LS_MORETHUENTE), ("LBFGS_LINESEARCH_BACKTRACKING_ARMIJO", LS_ARMIJO),
     ("LBFGS_LINESEARCH_BACKTRACKING", LS_WOLFE), ("LBFGS_LINESEARCH_BACKTRACKING_WOLFE", LS_WOLFE),
     ("LBFGS_LINESEARCH_BACKTRACKING_STRONG_WOLFE", LS_STRONG)].all
      (fun e => decide ((cEnum 0 headerSearch).lookup e.1 = some e.2)) = true := by
  constructor <;> decide +kernel

/-! ### C71 -/

/-- C71.  A rejected call violates the range belonging to the error code; so if only one parameter is
    out of range, the error is that parameter's. -/
theorem C71_code_partial (p : Par K) (e : Int) (h : check n p = some e) : Violates n p e := by
  unfold check at h
  rcases ite_some h with ⟨hc, rfl⟩ | ⟨h1, h⟩
  · exact .n hc
  rcases ite_some h with ⟨hc, rfl⟩ | ⟨h2, h⟩
  · exact .epsilon hc
  rcases ite_some h with ⟨hc, rfl⟩ | ⟨h3, h⟩
  · exact .past hc
  rcases ite_some h with ⟨hc, rfl⟩ | ⟨h4, h⟩
  · exact .delta hc
  rcases ite_some h with ⟨hc, rfl⟩ | ⟨h5, h⟩
  · exact .minStep hc
  rcases ite_some h with ⟨hc, rfl⟩ | ⟨h6, h⟩
  · exact .maxStep hc
  rcases ite_some h with ⟨hc, rfl⟩ | ⟨h7, h⟩
  · exact .ftol hc
  rcases ite_some h with ⟨hc, rfl⟩ | ⟨h8, h⟩
  · exact .wolfe hc.1 fun hw => hc.2.elim (not_le.2 hw.1) (not_le.2 hw.2)
  rcases ite_some h with ⟨hc, rfl⟩ | ⟨h9, h⟩
  · exact .gtol hc
  rcases ite_some h with ⟨hc, rfl⟩ | ⟨h10, h⟩
  · exact .xtol hc
  rcases ite_some h with ⟨hc, rfl⟩ | ⟨h11, h⟩
  · exact .maxLinesearch (by omega)
  rcases ite_some h with ⟨hc, rfl⟩ | ⟨h12, h⟩
  · exact .c hc
  rcases ite_some h with ⟨hc, rfl⟩ | ⟨h13, h⟩
  · exact .start (by omega)
  rcases ite_some h with ⟨hc, rfl⟩ | ⟨h14, h⟩
  · refine .stop ?_
    split_ifs at hc
    · exact absurd hc (lt_irrefl _)
    · exact hc
  by_cases hc : ¬ feq p.c 0
  · rw [if_pos hc] at h
    rw [feq_iff] at hc
    split_ifs at h with hl
    cases h
    exact .searchPenalised (lt_of_le_of_ne (not_lt.1 h12) (Ne.symm hc)) hl
  · rw [if_neg hc] at h
    rw [feq_iff, not_not] at hc
    split_ifs at h with hl
    cases h
    refine .searchPlain hc fun hr => hl ?_
    unfold LS_MORETHUENTE LS_ARMIJO LS_WOLFE LS_STRONG
    omega

/-- C71.  Calls with all parameters in range, and only those, are accepted. -/
theorem C71_accepted_partial (p : Par K) : check n p = none ↔ ∀ e, ¬ Violates n p e := by
  constructor
  · intro h
    unfold check at h
    rw [ite_none', ite_none', ite_none', ite_none', ite_none', ite_none', ite_none', ite_none', ite_none',
      ite_none', ite_none', ite_none', ite_none', ite_none'] at h
    obtain ⟨h1, h2, h3, h4, h5, h6, h7, h8, h9, h10, h11, h12, h13, h14, h15⟩ := h
    intro e he
    cases he with
    | n h => exact h1 h
    | epsilon h => exact h2 h
    | past h => exact h3 h
    | delta h => exact h4 h
    | minStep h => exact h5 h
    | maxStep h => exact h6 h
    | ftol h => exact h7 h
    | wolfe h h' =>
      apply h8
      refine ⟨h, ?_⟩
      by_contra hn
      exact h' ⟨not_le.1 fun x => hn (.inl x), not_le.1 fun x => hn (.inr x)⟩
    | gtol h => exact h9 h
    | xtol h => exact h10 h
    | maxLinesearch h => exact h11 (by omega)
    | c h => exact h12 h
    | start h => exact h13 (by omega)
    | stop h =>
      apply h14
      split_ifs <;> omega
    | searchPenalised h h' =>
      rw [if_pos (by rw [feq_iff]; exact h.ne'), if_neg (show p.linesearch ≠ LS_WOLFE from h')] at h15
      cases h15
    | searchPlain h h' =>
      rw [if_neg (by rw [feq_iff, not_not]; exact h), if_neg (by
        unfold LS_MORETHUENTE LS_ARMIJO LS_WOLFE LS_STRONG
        omega)] at h15
      cases h15
  · intro h
    rcases hc : check n p with _ | e
    · rfl
    · exact absurd (C71_code_partial p e hc) (h e)

/-- Valid parameters exist, and a single wrong one gives its own code. -/
example : check 3 (⟨5, 0, 0, 0, 0, 2, 3, 0, 100, 1/4, 9/10, 9/10, 0, 1, 0, 2⟩ : Par ℚ) = none ∧
    check 3 (⟨5, 0, 0, 0, 0, 3, 3, 0, 100, 1/4, 9/10, 9/10, 0, 1, 0, 2⟩ : Par ℚ) = some (-1014) ∧
    check 3 (⟨5, 0, 0, 0, 0, 2, 3, 0, 100, 1/4, 1/5, 9/10, 0, 1, 0, 2⟩ : Par ℚ) = some (-1010) ∧
    check 3 (⟨5, 0, 0, 0, 0, 2, 3, 0, 100, 1/4, 9/10, 9/10, 0, 1, 0, 4⟩ : Par ℚ) = some (-1004) := by
  decide +kernel

/-- C71.  Rejection comes before any evaluation and leaves the starting point alone. -/
theorem C71_before (env : Env n σ K) (p : Par K) (x0 : Fin n → K) (cb : σ) (o : Out n K) (e : Int)
    (he : Violates n p e) (h : Lbfgs env p x0 cb o) : o.x = x0 ∧ o.trials = [] ∧ Violates n p o.ret := by
  have hn : check n p ≠ none := fun hc => (C71_accepted_partial p).1 hc e he
  cases h with
  | rejected hc => exact ⟨rfl, rfl, C71_code_partial p _ hc⟩
  | already hc => exact absurd hc hn
  | run hc => exact absurd hc hn

example : Lbfgs (σ := Unit) (⟨id, fun x => (x 0, fun _ => 1), fun s _ _ _ _ _ _ _ _ => (0, s)⟩ : Env 1 Unit ℚ)
    ⟨5, 0, 0, 0, 0, 2, 3, -1, 100, 1/4, 9/10, 9/10, 0, 1, 0, 1⟩ (fun _ => 7) () ⟨-1013, fun _ => 7, [], []⟩ :=
  .rejected (by decide +kernel)

/-- C71.  Whatever search is asked for, a penalised problem runs with backtracking, and is never rejected
    because of the search. -/
theorem C71_owlqn (a : Args K) (p : Par K) (hc : 0 < a.par.c) (h : fminPar a = .ok p) :
    p = { a.par with linesearch := 2 } ∧ ¬ Violates n p (-1014) := by
  have hs : (chooseSearch a).1 = "wolfe" := by
    unfold chooseSearch
    by_cases h1 : a.lineSearch ∉ ["wolfe", "default"]
    · rw [if_pos ⟨hc, h1⟩]
    · rw [if_neg fun h => h1 h.2]
      by_cases h2 : a.lineSearch = "default"
      · rw [if_pos ⟨hc, h2⟩]
      · rw [if_neg fun h => h2 h.2]
        simp only [List.mem_cons, List.not_mem_nil, or_false, not_not] at h1
        exact h1.resolve_right h2
  unfold fminPar at h
  rw [if_neg (not_not.2 hc.le), hs] at h
  have hp : p = { a.par with linesearch := 2 } := (Except.ok.inj h).symm
  refine ⟨hp, fun hv => ?_⟩
  subst hp
  cases hv with
  | searchPenalised _ h' => exact h' rfl
  | searchPlain h _ => exact hc.ne' h

example : (fminPar (⟨⟨5, 0, 0, 0, 0, 0, 3, 0, 100, 1/4, 9/10, 9/10, 0, 1, 0, 2⟩, "armijo"⟩ : Args ℚ)).toOption.map
    (fun p => p.linesearch) = some 2 := by decide +kernel

/-- C71 is false of the documented ranges: `orthantwise_start = N` (documented `0 <= b < N`),
    `ftol = 2` (documented below 0.5) and `m = 0` (then the C code divides by zero) are accepted. -/
theorem C71_negation :
    ¬ (∀ (n : Nat) (p : Par ℚ), check n p = none → p.start < n) ∧
    ¬ (∀ (n : Nat) (p : Par ℚ), check n p = none → p.ftol < 1/2) ∧
    ¬ (∀ (n : Nat) (p : Par ℚ), check n p = none → 0 < p.m) := by
  refine ⟨fun h => ?_, fun h => ?_, fun h => ?_⟩
  · have := h 3 ⟨5, 0, 0, 0, 0, 2, 3, 0, 100, 1/4, 9/10, 9/10, 0, 1, 3, -1⟩ (by decide +kernel)
    revert this; decide +kernel
  · have := h 3 ⟨5, 0, 0, 0, 0, 0, 3, 0, 100, 2, 9/10, 9/10, 0, 0, 0, -1⟩ (by decide +kernel)
    revert this; decide +kernel
  · have := h 3 ⟨0, 0, 0, 0, 0, 0, 3, 0, 100, 1/4, 9/10, 9/10, 0, 0, 0, -1⟩ (by decide +kernel)
    revert this; decide +kernel

/-! ### C70 -/

/-- C70.  With a known line search, a non-negative penalty, no delta-based stopping, and a progress
    callable that returns only 0, `None`, the all-zero code or codes of the library, every outcome of
    `fmin_lbfgs` is one of the documented ones.  (Missing: other return values, see `C70_negation`.) -/
theorem C70_partial (c : Callables n σ K) (a : Args K) (x0 : Fin n → K) (cb : σ) (res : Res n K)
    (tr : List (Fin n → K)) (h : Fmin c a x0 cb res tr) (hc : 0 ≤ a.par.c)
    (hl : a.lineSearch ∈ ["default", "morethuente", "armijo", "wolfe", "strongwolfe"])
    (hs : a.par.past ≤ 0 ∨ a.par.delta ≤ 0)
    (hp : ∀ cb x g f xn gn st k l v, (c.progress cb x g f xn gn st k l).1 = .ok (some v) →
      v = 0 ∨ v = -2048 ∨ (message v).isSome = true) :
    (∃ x w, res = .returned x w) ∨ (∃ m, res = .raised .lbfgsError (some m)) ∨
      res = .raised .allZeroLbfgs none ∨ res = .raised .memoryError none := by
  have hpar : ∃ p : Par K, fminPar a = .ok p ∧ p.past = a.par.past ∧ p.delta = a.par.delta := by
    have hch : (chooseSearch a).1 ∈ ["default", "morethuente", "armijo", "wolfe", "strongwolfe"] := by
      unfold chooseSearch
      split_ifs
      · simp
      · simp
      · exact hl
    unfold fminPar
    rw [if_neg (not_not.2 hc)]
    simp only [List.mem_cons, List.not_mem_nil, or_false] at hch
    rcases hch with h | h | h | h | h <;> rw [h] <;> exact ⟨_, rfl, rfl, rfl⟩
  obtain ⟨q, hpar, hpast, hdelta⟩ := hpar
  have hfin : ∀ o : Out n K, ((∃ x w, finish o = .returned x w) ∨
      (∃ m, finish o = .raised .lbfgsError (some m)) ∨ finish o = .raised .memoryError none) →
      (∃ x w, finish o = .returned x w) ∨ (∃ m, finish o = .raised .lbfgsError (some m)) ∨
      finish o = .raised .allZeroLbfgs none ∨ finish o = .raised .memoryError none := by
    intro o h
    rcases h with h | h | h
    · exact .inl h
    · exact .inr (.inl h)
    · exact .inr (.inr (.inr h))
  cases h with
  | bad h => rw [hpar] at h; cases h
  | @run p o h hrun =>
    rw [hpar] at h
    have hpe : q = p := Except.ok.inj h
    subst hpe
    cases hrun with
    | @rejected code hcheck =>
      apply hfin
      apply finish_message
      have hv := C71_code_partial _ _ hcheck
      have : ∀ e, Violates n q e → (message e).isSome = true := by
        intro e he
        cases he <;> decide +kernel
      exact this _ hv
    | already => exact .inl ⟨_, _, rfl⟩
    | run hcheck _ hr =>
      obtain ⟨_, hmin, hmax, _, _, hm, _⟩ := check_facts hcheck
      have := run_codes c.env (fillEnd n q)
        (by rw [fillEnd_eq]; exact hm) (by rw [fillEnd_eq]; exact hmin)
        (by rw [fillEnd_eq]; exact hmax) hr
      rcases this with h | h | h | h | ⟨cb', x, g, f, xn, gn, st, k, l, hne, he⟩
      · rcases finish_lsErrors o h with h | h
        · exact .inl h
        · exact .inr (.inl h)
      · exact .inl ⟨o.x, none, by unfold finish; rw [if_pos]; left; rw [h]; decide +kernel⟩
      · apply hfin
        apply finish_message
        rw [h]
        decide +kernel
      · rw [fillEnd_eq] at h
        rw [← hpast, ← hdelta] at hs
        rcases hs with h' | h'
        · exact absurd h.2.1 (not_lt.2 h')
        · exact absurd h.2.2 (not_lt.2 h')
      · have hv : ∃ v, (c.progress cb' x g f xn gn st k l).1 = .ok (some v) ∧ o.ret = v := by
          simp only [Callables.env] at he
          rcases hpr : (c.progress cb' x g f xn gn st k l).1 with e | v
          · rw [hpr] at he; exact absurd he hne
          · rcases v with _ | v
            · rw [hpr] at he; exact absurd he hne
            · rw [hpr] at he; exact ⟨v, rfl, he⟩
        obtain ⟨v, hv, hov⟩ := hv
        rcases hp _ _ _ _ _ _ _ _ _ _ hv with h | h | h
        · exact absurd (hov.trans h) hne
        · refine .inr (.inr (.inl ?_))
          unfold finish
          rw [hov, h]
          rfl
        · exact hfin o (finish_message o (by rw [hov]; exact h))

/-- C70.  A warning always is one of the three messages about limits and rounding. -/
theorem C70_warnings {F : Type} (o : Out n F) (x : Fin n → F) (w : String)
    (h : finish o = .returned x (some w)) :
    x = o.x ∧ o.ret ∈ [-1001, -998, -997] ∧ message o.ret = some w := by
  unfold finish at h
  split_ifs at h with h1 h2 h3 h4
  · cases h
  · rcases hm : message o.ret with _ | m
    · rw [hm] at h; cases h
    · rw [hm] at h
      cases h
      refine ⟨rfl, ?_, rfl⟩
      rcases h2 with h | h | h <;> rw [h] <;> decide +kernel
  · rcases hm : message o.ret with _ | m
    · rw [hm] at h; cases h
    · rw [hm] at h; cases h

example : ∃ w, finish (⟨-997, fun _ => 3, [], []⟩ : Out 1 ℚ) = .returned (fun _ => 3) (some w) := ⟨_, rfl⟩

/-- The objective `x² / 2` with a progress callable that always returns `v`. -/
def exCall (v : Option Int) : Callables 1 Unit ℚ :=
  ⟨Rat.sqrt, fun x => (.ok (x 0 ^ 2 / 2), fun _ => x 0), fun s _ _ _ _ _ _ _ _ => (.ok v, s)⟩

/-- The defaults of `fmin_lbfgs` with `past` and `delta` given. -/
def exArgs (past : Int) (delta : ℚ) : Args ℚ :=
  ⟨⟨10, 1/100000, past, delta, 0, 0, 20, 1/100000000000000000000, 100000000000000000000, 1/10000, 9/10,
    9/10, 0, 0, 0, -1⟩, "armijo"⟩

/-- C70 is false: the delta-based stop (a documented way to stop) and a progress callable returning 1
    raise `KeyError`; one returning 2 makes the call return the current point as if it had converged,
    although the documentation says that `LBFGSError` is raised. -/
theorem C70_negation :
    (∃ tr, Fmin (exCall none) (exArgs 1 10) (fun _ => 8) () (.raised .keyError none) tr) ∧
    (∃ tr, Fmin (exCall (some 1)) (exArgs 0 0) (fun _ => 8) () (.raised .keyError none) tr) ∧
    ∃ x tr, Fmin (exCall (some 2)) (exArgs 0 0) (fun _ => 8) () (.returned x none) tr ∧ x 0 = 7 := by
  refine ⟨?_, ?_, ?_⟩
  · obtain ⟨o, ho, he⟩ := lbfgs_of_fuel (fun o => (o.ret, o.x 0)) (exCall none).env { (exArgs 1 10).par with linesearch := 1 }
      (fun _ => 8) () 3 (1, 7) (by decide +kernel) (by decide +kernel) (by decide +kernel)
    have hr := congrArg Prod.fst he
    have hx := congrArg Prod.snd he
    dsimp only at hr hx
    have hf : finish o = .raised .keyError none := by simp only [finish, hr]; rfl
    exact ⟨_, hf ▸ Fmin.run (p := { (exArgs 1 10).par with linesearch := 1 }) rfl ho⟩
  · obtain ⟨o, ho, he⟩ := lbfgs_of_fuel (fun o => (o.ret, o.x 0)) (exCall (some 1)).env { (exArgs 0 0).par with linesearch := 1 }
      (fun _ => 8) () 3 (1, 7) (by decide +kernel) (by decide +kernel) (by decide +kernel)
    have hr := congrArg Prod.fst he
    have hx := congrArg Prod.snd he
    dsimp only at hr hx
    have hf : finish o = .raised .keyError none := by simp only [finish, hr]; rfl
    exact ⟨_, hf ▸ Fmin.run (p := { (exArgs 0 0).par with linesearch := 1 }) rfl ho⟩
  · obtain ⟨o, ho, he⟩ := lbfgs_of_fuel (fun o => (o.ret, o.x 0)) (exCall (some 2)).env { (exArgs 0 0).par with linesearch := 1 }
      (fun _ => 8) () 3 (2, 7) (by decide +kernel) (by decide +kernel) (by decide +kernel)
    have hr := congrArg Prod.fst he
    have hx := congrArg Prod.snd he
    dsimp only at hr hx
    have hf : finish o = .returned o.x none := by simp only [finish, hr]; rfl
    exact ⟨o.x, _, hf ▸ Fmin.run (p := { (exArgs 0 0).par with linesearch := 1 }) rfl ho, hx⟩

/-- A run satisfying the hypotheses of `C70_partial`: two iterations to convergence. -/
example : ∃ x tr, Fmin (exCall none) (exArgs 0 0) (fun _ => 8) () (.returned x none) tr ∧ x 0 = 0 := by
  obtain ⟨o, ho, he⟩ := lbfgs_of_fuel (fun o => (o.ret, o.x 0)) (exCall none).env { (exArgs 0 0).par with linesearch := 1 }
    (fun _ => 8) () 5 (0, 0) (by decide +kernel) (by decide +kernel) (by decide +kernel)
  have hr := congrArg Prod.fst he
  have hx := congrArg Prod.snd he
  dsimp only at hr hx
  have hf : finish o = .returned o.x none := by simp only [finish, hr]; rfl
  exact ⟨o.x, _, hf ▸ Fmin.run (p := { (exArgs 0 0).par with linesearch := 1 }) rfl ho, hx⟩

/-! ### C81 -/

/-- C81 (what happens instead).  An exception in the objective counts as the value 0, one in the progress
    callable as "go on": the outcomes of `fmin_lbfgs` are exactly those with callables that return these
    values and never raise. -/
theorem C81_partial (c : Callables n σ K) (a : Args K) (x0 : Fin n → K) (cb : σ) (res : Res n K)
    (tr : List (Fin n → K)) :
    Fmin c a x0 cb res tr ↔ Fmin { c with
      f := fun x => (.ok ((c.f x).1.toOption.getD 0), (c.f x).2)
      progress := fun s x g f xn gn st k l => (.ok (((c.progress s x g f xn gn st k l).1.toOption.bind id)),
        (c.progress s x g f xn gn st k l).2) } a x0 cb res tr := by
  have he : c.env = Callables.env { c with
      f := fun x => (.ok ((c.f x).1.toOption.getD 0), (c.f x).2)
      progress := fun s x g f xn gn st k l => (.ok (((c.progress s x g f xn gn st k l).1.toOption.bind id)),
        (c.progress s x g f xn gn st k l).2) } := by
    simp only [Callables.env]
    congr 1
    · funext x
      rcases (c.f x).1 with e | v <;> rfl
    · funext s x g f xn gn st k l
      rcases (c.progress s x g f xn gn st k l).1 with e | (_ | v) <;> rfl
  constructor
  · intro h
    cases h with
    | bad h => exact .bad h
    | run h h' => exact .run h (he ▸ h')
  · intro h
    cases h with
    | bad h => exact .bad h
    | run h h' => exact .run h (he.symm ▸ h')

/-- C81 is false: an objective that raises `ValueError` at every call gives a normal result, the starting
    point. -/
theorem C81_negation :
    ¬ ∀ (c : Callables 1 Unit ℚ) (a : Args ℚ) (x0 : Fin 1 → ℚ) (res : Res 1 ℚ) (tr : List (Fin 1 → ℚ)),
      (∀ x, (c.f x).1 = .error .valueError) → Fmin c a x0 () res tr → ∃ m, res = .raised .valueError m := by
  intro h
  have := h ⟨Rat.sqrt, fun _ => (.error .valueError, fun _ => 0), fun s _ _ _ _ _ _ _ _ => (.ok none, s)⟩
    (exArgs 0 0) (fun _ => 8) (finish ⟨ALREADY_MINIMIZED, fun _ => 8, [fun _ => 8], []⟩) [fun _ => 8]
    (fun _ => rfl)
    (.run (p := { (exArgs 0 0).par with linesearch := 1 }) rfl (.already (by decide +kernel) (by decide +kernel)))
  obtain ⟨m, hm⟩ := this
  cases hm

/-! ### C82 -/

/-- C82.  The message of a rejected parameter names it, except for `min_step`. -/
theorem C82_partial : ∀ e ∈ argument, e.2 ≠ "min_step" →
    message e.1 = some ("Invalid parameter " ++ e.2 ++ " specified.") := by decide +kernel

example : (-1007, "max_linesearch") ∈ argument ∧
    message (-1007) = some "Invalid parameter max_linesearch specified." := by decide +kernel

/-- C82 is false for `min_step`: the message names `max_step`. -/
theorem C82_negation : ∃ tr, Fmin (exCall none)
    { (exArgs 0 0) with par := { (exArgs 0 0).par with minStep := -1 } } (fun _ => 8) ()
    (.raised .lbfgsError (some "Invalid parameter max_step specified.")) tr := by
  refine ⟨_, Fmin.run (p := { (exArgs 0 0).par with minStep := -1, linesearch := 1 }) rfl
    (.rejected (code := -1013) (by decide +kernel))⟩

end Verif.Lbfgs
