import Verif.Lemmas.Searches
/-!
The line searches of `fmin_lbfgs` by name (C112).
-/
namespace Verif.Lbfgs
open Finset Spec
variable {n : Nat} {σ K : Type} [Field K] [LinearOrder K] [IsStrictOrderedRing K]

/-- Arguments for minimising `x²/2` with a given search. -/
def exSearch (name : String) : Args ℚ :=
  ⟨⟨5, 0, 0, 0, 3, 0, 20, 0, 100, 1/10000, 1/5, 1/10, 0, 0, 0, -1⟩, name⟩

/-- C112.  Without penalty, every move seen by the progress callable obeys the conditions documented for
    the name of the line search: sufficient decrease always, the curvature condition for `'wolfe'` and
    `'strongwolfe'`, the strong one for `'strongwolfe'` with `wolfe` and for `'morethuente'` and
    `'default'` with `gtol`. -/
theorem C112_moves (env : Env n σ K) (a : Args K) (p : Par K) (x0 : Fin n → K) (cb : σ) (o : Out n K)
    (h0 : a.par.c = 0) (ha : fminPar a = .ok p) (h : Lbfgs env p x0 cb o) :
    (o.reports.map (fun q : Report n K => (⟨q.x, q.fx, q.g⟩ : Pt n K)) ++
      [(⟨x0, (env.eval x0).1, (env.eval x0).2⟩ : Pt n K)]).IsChain
      fun new old => Accepts a.lineSearch a.par.ftol a.par.wolfe a.par.gtol old new := by
  have hp := fminPar_plain h0 ha
  have hall : ∀ old new : Pt n K, Accepts' (fillEnd n p) old new →
      Accepts a.lineSearch a.par.ftol a.par.wolfe a.par.gtol old new := by
    intro old new hacc
    rw [fillEnd_eq] at hacc
    obtain ⟨h1, h2, h3, h4⟩ := hacc
    rcases hp with ⟨hn, rfl⟩ | ⟨hn, rfl⟩ | ⟨hn, rfl⟩ | ⟨hn, rfl⟩ | ⟨hn, rfl⟩ <;> rw [hn]
    · exact ⟨h1, fun h => absurd h (by decide), fun h => absurd h (by decide), fun _ => h4 rfl⟩
    · exact ⟨h1, fun h => absurd h (by decide), fun h => absurd h (by decide), fun _ => h4 rfl⟩
    · exact ⟨h1, fun h => absurd h (by decide), fun h => absurd h (by decide),
        fun h => absurd h (by decide)⟩
    · exact ⟨h1, fun _ => h2 (.inl rfl), fun h => absurd h (by decide), fun h => absurd h (by decide)⟩
    · exact ⟨h1, fun _ => h2 (.inr rfl), fun _ => h3 rfl, fun h => absurd h (by decide)⟩
  have hc : (fillEnd n p).c = 0 := by
    rw [fillEnd_eq]
    rcases hp with ⟨_, rfl⟩ | ⟨_, rfl⟩ | ⟨_, rfl⟩ | ⟨_, rfl⟩ | ⟨_, rfl⟩ <;> exact h0
  cases h with
  | rejected => exact List.isChain_singleton _
  | already => exact List.isChain_singleton _
  | run hck _ hrun =>
    exact (steps_run (ok_of_check hck) hc hrun (steps_start _ _ hc _ _)).imp fun new old => hall old new

/-- From 8 the first trial of every search is 7.  `'armijo'` accepts it; `'strongwolfe'` with `wolfe=1/5`
    and `'morethuente'` with `gtol=1/10` go on. -/
example : (∃ p o, fminPar (exSearch "armijo") = .ok p ∧ Lbfgs exSq p ![8] () o ∧
      (o.reports.map fun q => (q.x 0, q.ls)) = [(0, 1), (7, 1)]) ∧
    (∃ p o, fminPar (exSearch "strongwolfe") = .ok p ∧ Lbfgs exSq p ![8] () o ∧
      (o.reports.map fun q => (q.x 0, q.ls)) = [(0, 1), (-1261/1000, 4)]) ∧
    ∃ p o, fminPar (exSearch "morethuente") = .ok p ∧ Lbfgs exSq p ![8] () o ∧
      (o.reports.map fun q => (q.x 0, q.ls)) = [(0, 3)] := by
  refine ⟨?_, ?_, ?_⟩
  · obtain ⟨o, h1, h2⟩ := lbfgs_of_fuel (fun o => o.reports.map fun q => (q.x 0, q.ls)) exSq
      { (exSearch "armijo").par with linesearch := 1 } ![8] () 5 [(0, 1), (7, 1)]
      (by decide +kernel) (by decide +kernel) (by decide +kernel)
    exact ⟨_, o, rfl, h1, h2⟩
  · obtain ⟨o, h1, h2⟩ := lbfgs_of_fuel (fun o => o.reports.map fun q => (q.x 0, q.ls)) exSq
      { (exSearch "strongwolfe").par with linesearch := 3 } ![8] () 5 [(0, 1), (-1261/1000, 4)]
      (by decide +kernel) (by decide +kernel) (by decide +kernel)
    exact ⟨_, o, rfl, h1, h2⟩
  · obtain ⟨o, h1, h2⟩ := lbfgs_of_fuel (fun o => o.reports.map fun q => (q.x 0, q.ls)) exSq
      { (exSearch "morethuente").par with linesearch := 0 } ![8] () 5 [(0, 3)]
      (by decide +kernel) (by decide +kernel) (by decide +kernel)
    exact ⟨_, o, rfl, h1, h2⟩

/-- C112.  The backtracking searches ask for no more than their names say: a search fails after its last
    permitted trial only if that trial violates the named conditions. -/
theorem C112_exact (env : Env n σ K) (a : Args K) (p : Par K) (s : St n σ K) (h0 : a.par.c = 0)
    (ha : fminPar a = .ok p) (hck : check n p = none)
    (hn : a.lineSearch ≠ "default" ∧ a.lineSearch ≠ "morethuente") (hs : 0 < s.step)
    (hd : dot s.g s.d ≤ 0) :
    let r := lineSearch env p s
    0 ≤ r.ret ↔ Armijo a.par.ftol s.fx (dot s.g s.d) r.step (env.eval r.x).1 ∧
      (a.lineSearch = "wolfe" ∨ a.lineSearch = "strongwolfe" →
        Wolfe a.par.wolfe (dot s.g s.d) (dot (env.eval r.x).2 s.d)) ∧
      (a.lineSearch = "strongwolfe" →
        StrongWolfe a.par.wolfe (dot s.g s.d) (dot (env.eval r.x).2 s.d)) := by
  have hm : 0 < p.maxLinesearch := by
    have h := (ok_of_check hck).maxLs
    rw [fillEnd_eq] at h
    exact h
  have key : ∀ q : Par K, 0 < q.maxLinesearch → q.c = 0 → q.linesearch ≠ LS_MORETHUENTE →
      (0 ≤ (lineSearch env q s).ret ↔
        Armijo q.ftol s.fx (dot s.g s.d) (lineSearch env q s).step (env.eval (lineSearch env q s).x).1 ∧
        (q.linesearch ≠ LS_ARMIJO → Wolfe q.wolfe (dot s.g s.d)
          (dot (env.eval (lineSearch env q s).x).2 s.d)) ∧
        (q.linesearch ≠ LS_ARMIJO → q.linesearch ≠ LS_WOLFE →
          StrongWolfe q.wolfe (dot s.g s.d) (dot (env.eval (lineSearch env q s).x).2 s.d))) := by
    intro q hq hqc hql
    unfold lineSearch
    rw [if_pos (feq_iff.2 hqc), if_neg hql]
    obtain ⟨h1, h2⟩ := C80_backtracking env q s.x s.fx s.g s.d s.step hq hs hd
    rw [h1]
    exact h2
  dsimp only
  rcases fminPar_plain h0 ha with ⟨hl, rfl⟩ | ⟨hl, rfl⟩ | ⟨hl, rfl⟩ | ⟨hl, rfl⟩ | ⟨hl, rfl⟩
  · exact absurd hl hn.1
  · exact absurd hl hn.2
  · rw [key _ hm h0 (show LS_ARMIJO ≠ LS_MORETHUENTE by decide), hl]
    refine and_congr_right fun _ => ⟨fun _ => ⟨fun h => absurd h (by decide), fun h => absurd h (by decide)⟩,
      fun _ => ⟨fun h => absurd rfl h, fun h => absurd rfl h⟩⟩
  · rw [key _ hm h0 (show LS_WOLFE ≠ LS_MORETHUENTE by decide), hl]
    refine and_congr_right fun _ => ⟨fun h => ⟨fun _ => h.1 (show LS_WOLFE ≠ LS_ARMIJO by decide),
      fun h => absurd h (by decide)⟩, fun h => ⟨fun _ => h.1 (.inl rfl), fun _ h => absurd rfl h⟩⟩
  · rw [key _ hm h0 (show LS_STRONG ≠ LS_MORETHUENTE by decide), hl]
    refine and_congr_right fun _ => ⟨fun h => ⟨fun _ => h.1 (show LS_STRONG ≠ LS_ARMIJO by decide),
      fun _ => h.2 (show LS_STRONG ≠ LS_ARMIJO by decide) (show LS_STRONG ≠ LS_WOLFE by decide)⟩,
      fun h => ⟨fun _ => h.1 (.inr rfl), fun _ _ => h.2 rfl⟩⟩

/-- The arguments of the examples are valid, and the state before the first iteration has a positive step
    and a descent direction. -/
example : fminPar (exSearch "wolfe") = .ok { (exSearch "wolfe").par with linesearch := 2 } ∧
    check 1 { (exSearch "wolfe").par with linesearch := 2 } = none ∧
    let s := start exSq { (exSearch "wolfe").par with linesearch := 2 } ![8] ()
    0 < s.step ∧ dot s.g s.d < 0 := by
  refine ⟨rfl, by decide +kernel, by decide +kernel, by decide +kernel⟩

omit [IsStrictOrderedRing K] in
/-- C112.  An unknown name is refused with a `KeyError` before the objective is evaluated; with a penalty
    any name, known or not, is replaced by `'wolfe'`, and there is a warning unless it was `'wolfe'` or
    `'default'`. -/
theorem C112_unknown (c : Callables n σ K) (a : Args K) (x0 : Fin n → K) (cb : σ) :
    (a.par.c = 0 → a.lineSearch ∉ ["default", "morethuente", "armijo", "wolfe", "strongwolfe"] →
      ∀ res tr, Fmin c a x0 cb res tr → res = .raised .keyError none ∧ tr = []) ∧
    (0 < a.par.c → ((chooseSearch a).2 = true ↔ a.lineSearch ≠ "wolfe" ∧ a.lineSearch ≠ "default") ∧
      fminPar a = .ok { a.par with linesearch := 2 }) := by
  refine ⟨fun h0 hn res tr h => ?_, fun hc => ?_⟩
  · have hk : fminPar a = .error .keyError := by
      rcases h : fminPar a with e | p
      · unfold fminPar at h
        rw [if_neg (by rw [h0, not_not])] at h
        split at h
        · exact h.symm
        · cases h
      · exfalso
        apply hn
        rcases fminPar_plain h0 h with ⟨h, _⟩ | ⟨h, _⟩ | ⟨h, _⟩ | ⟨h, _⟩ | ⟨h, _⟩ <;> rw [h] <;> decide
    cases h with
    | bad h => rw [hk] at h; cases h; exact ⟨rfl, rfl⟩
    | run h => rw [hk] at h; cases h
  · unfold fminPar chooseSearch
    rw [if_neg (not_not.2 hc.le)]
    by_cases h1 : a.lineSearch = "wolfe"
    · rw [h1]
      refine ⟨?_, ?_⟩
      · simp
      · rw [if_neg (by simp), if_neg (by simp)]; rfl
    · by_cases h2 : a.lineSearch = "default"
      · rw [h2]
        refine ⟨?_, ?_⟩
        · simp [hc]
        · rw [if_neg (by simp), if_pos ⟨hc, rfl⟩]; rfl
      · rw [if_pos ⟨hc, by simp [h1, h2]⟩]
        exact ⟨by simp [h1, h2], rfl⟩

example : "wolf" ∉ ["default", "morethuente", "armijo", "wolfe", "strongwolfe"] ∧ (exSearch "wolf").par.c = 0 ∧
    (chooseSearch { exSearch "wolf" with par := { (exSearch "wolf").par with c := 1 } }) = ("wolfe", true) := by
  decide +kernel

end Verif.Lbfgs
