import Verif.Model.LbfgsPy
import Verif.Lemmas.LineSearch
import Verif.Spec.LbfgsPy
/-! Helper lemmas for the wrapper of the minimiser. -/
namespace Verif.Lbfgs
open Finset Spec
variable {n : Nat} {σ K : Type} [Field K] [LinearOrder K] [IsStrictOrderedRing K]

/-- The codes of rejected parameters. -/
theorem violates_le {p : Par K} {e : Int} (h : Violates n p e) : e ≤ -1004 := by
  cases h <;> decide

theorem ite_some {c : Prop} [Decidable c] {a e : Int} {t : Option Int}
    (h : (if c then some a else t) = some e) : (c ∧ e = a) ∨ (¬ c ∧ t = some e) := by
  split_ifs at h with hc
  · exact .inl ⟨hc, (Option.some.inj h).symm⟩
  · exact .inr ⟨hc, h⟩

theorem ite_none' {c : Prop} [Decidable c] {a : Int} {t : Option Int} :
    (if c then some a else t) = none ↔ ¬ c ∧ t = none := by
  split_ifs with hc <;> simp [hc]

/-- What acceptance of the parameters means for the loops. -/
theorem check_facts {p : Par K} (h : check n p = none) :
    0 ≤ p.epsilon ∧ 0 ≤ p.minStep ∧ p.minStep ≤ p.maxStep ∧ 0 ≤ p.ftol ∧ 0 ≤ p.gtol ∧
      0 < p.maxLinesearch ∧ 0 ≤ p.c ∧ 0 ≤ p.start ∧ p.start ≤ n ∧ p.stop ≤ n ∧
      (p.linesearch = LS_WOLFE ∨ p.linesearch = LS_STRONG → p.ftol < p.wolfe ∧ p.wolfe < 1) ∧
      (0 < p.c → p.linesearch = LS_WOLFE) ∧
      (p.c = 0 → p.linesearch = LS_MORETHUENTE ∨ p.linesearch = LS_ARMIJO ∨ p.linesearch = LS_WOLFE ∨
        p.linesearch = LS_STRONG) ∧ 0 < n := by
  unfold check at h
  rw [ite_none', ite_none', ite_none', ite_none', ite_none', ite_none', ite_none', ite_none', ite_none',
    ite_none', ite_none', ite_none', ite_none', ite_none'] at h
  obtain ⟨h1, h2, h3, h4, h5, h6, h7, h8, h9, h10, h11, h12, h13, h14, h15⟩ := h
  refine ⟨not_lt.1 h2, not_lt.1 h5, not_lt.1 h6, not_lt.1 h7, not_lt.1 h9, by omega, not_lt.1 h12,
    by omega, by omega, by split_ifs at h14 <;> omega, fun hl => ⟨?_, ?_⟩, fun hc => ?_, fun hc => ?_,
    Nat.pos_of_ne_zero h1⟩
  · exact not_le.1 fun hle => h8 ⟨hl, .inl hle⟩
  · exact not_le.1 fun hle => h8 ⟨hl, .inr hle⟩
  · rw [if_pos (by rw [feq_iff]; exact hc.ne')] at h15
    by_contra hl
    rw [if_neg hl] at h15
    cases h15
  · rw [if_neg (by rw [feq_iff, not_not]; exact hc)] at h15
    by_contra hl
    rw [if_neg hl] at h15
    cases h15

theorem fillEnd_eq (p : Par K) : fillEnd n p = { p with stop := if p.stop < 0 then (n : Int) else p.stop } := by
  unfold fillEnd
  split_ifs <;> rfl

/-- The codes a line search can fail with. -/
def lsErrors : List Int := [ERR_INVALIDPARAMETERS, ERR_INCREASEGRADIENT, ERR_ROUNDING, ERR_MINIMUMSTEP,
  ERR_MAXIMUMSTEP, ERR_WIDTH, ERR_MAXIMUMLINESEARCH]

theorem lineSearch_codes (env : Env n σ K) (p : Par K) (s : St n σ K) (hm : 0 < p.maxLinesearch)
    (hmin : 0 ≤ p.minStep) (hmax : p.minStep ≤ p.maxStep) (h : (lineSearch env p s).ret < 0) :
    (lineSearch env p s).ret ∈ lsErrors := by
  unfold lineSearch at h ⊢
  by_cases hc : feq p.c 0
  · rw [if_pos hc] at h ⊢
    by_cases hl : p.linesearch = LS_MORETHUENTE
    · rw [if_pos hl] at h ⊢
      simp only [moreThuente, vecdot_eq] at h ⊢
      by_cases h0 : s.step ≤ 0
      · rw [if_pos h0]; simp [lsErrors]
      rw [if_neg h0] at h ⊢
      by_cases h1 : 0 < dot s.g s.d
      · rw [if_pos h1]; simp [lsErrors]
      rw [if_neg h1] at h ⊢
      have := (mtLoop_spec env p s.x s.d s.fx (dot s.g s.d) hmin hmax
        p.maxLinesearch.toNat 0 ⟨0, s.fx, dot s.g s.d, 0, s.fx, dot s.g s.d, s.step, false⟩ true
        (p.maxStep - p.minStep) (const 2 1 * (p.maxStep - p.minStep)) 0 [] (le_refl _) (by omega)
        (by simp; omega)).2.2.2.2.2.2 h
      rcases this with h | h | h | h | h <;> rw [h] <;> simp [lsErrors]
    · rw [if_neg hl] at h ⊢
      simp only [backtracking, vecdot_eq] at h ⊢
      by_cases h0 : s.step ≤ 0
      · rw [if_pos h0]; simp [lsErrors]
      rw [if_neg h0] at h ⊢
      by_cases h1 : 0 < dot s.g s.d
      · rw [if_pos h1]; simp [lsErrors]
      rw [if_neg h1] at h ⊢
      have := ((btLoop_spec env p s.x s.d s.fx (dot s.g s.d) p.maxLinesearch.toNat 0 s.step []
        (not_le.1 h0) (by omega) (by simp; omega)).2.2.2.2 h).1
      rcases this with h | h | h <;> rw [h] <;> simp [lsErrors]
  · rw [if_neg hc] at h ⊢
    simp only [backtrackingOwlqn] at h ⊢
    by_cases h0 : s.step ≤ 0
    · rw [if_pos h0]; simp [lsErrors]
    rw [if_neg h0] at h ⊢
    have := ((owlqnLoop_spec env p s.x s.pg (fun i => if feq (s.x i) 0 then -s.pg i else s.x i) s.d s.fx
      p.maxLinesearch.toNat 0 s.step [] (not_le.1 h0) (by omega) (by simp; omega)).2.2.2.2.2.2.2.2 h).1
    rcases this with h | h | h <;> rw [h] <;> simp [lsErrors]

/-- The codes a run can end with. -/
theorem run_codes (env : Env n σ K) (p : Par K) (hm : 0 < p.maxLinesearch) (hmin : 0 ≤ p.minStep)
    (hmax : p.minStep ≤ p.maxStep) {s : St n σ K} {o : Out n K} (h : Run env p s o) :
    o.ret ∈ lsErrors ∨ o.ret = SUCCESS ∨ o.ret = ERR_MAXIMUMITERATION ∨
      (o.ret = STOP ∧ 0 < p.past ∧ 0 < p.delta) ∨
      ∃ cb x g a b c d k l, o.ret ≠ 0 ∧ o.ret = (env.progress cb x g a b c d k l).1 := by
  induction h with
  | next _ _ ih => exact ih
  | @done s o h =>
    unfold iterate at h
    dsimp only at h
    by_cases h1 : (lineSearch env p s).ret < 0
    · rw [if_pos h1] at h
      cases h
      exact .inl (lineSearch_codes env p s hm hmin hmax h1)
    rw [if_neg h1] at h
    split_ifs at h with h2 h3 h4 h5
    · cases h
      exact .inr (.inr (.inr (.inr ⟨_, _, _, _, _, _, _, _, _, h2, rfl⟩)))
    · cases h
      exact .inr (.inl rfl)
    · cases h
      refine .inr (.inr (.inr (.inl ⟨rfl, h4.1, ?_⟩)))
      have := h4.2.2
      rw [fabs_eq] at this
      exact lt_of_le_of_lt (abs_nonneg _) this
    · cases h
      exact .inr (.inr (.inl rfl))

theorem finish_lsErrors {F : Type} (o : Out n F) (h : o.ret ∈ lsErrors) :
    (∃ x w, finish o = .returned x w) ∨ ∃ m, finish o = .raised .lbfgsError (some m) := by
  simp only [lsErrors, List.mem_cons, List.not_mem_nil, or_false] at h
  rcases h with h | h | h | h | h | h | h <;> simp only [finish, h]
  · exact .inr ⟨_, rfl⟩
  · exact .inr ⟨_, rfl⟩
  · exact .inl ⟨_, _, rfl⟩
  · exact .inr ⟨_, rfl⟩
  · exact .inr ⟨_, rfl⟩
  · exact .inr ⟨_, rfl⟩
  · exact .inl ⟨_, _, rfl⟩

/-- Every code in the table of messages leads to a documented outcome. -/
theorem finish_message {F : Type} (o : Out n F) (h : (message o.ret).isSome = true) :
    (∃ x w, finish o = .returned x w) ∨ (∃ m, finish o = .raised .lbfgsError (some m)) ∨
      finish o = .raised .memoryError none := by
  obtain ⟨m, hm⟩ := Option.isSome_iff_exists.1 h
  unfold finish
  split_ifs with h1 h2 h3 h4
  · exact .inl ⟨_, _, rfl⟩
  · rw [hm]; exact .inl ⟨_, _, rfl⟩
  · exact .inr (.inr rfl)
  · rw [h4, show message (wcode "LBFGS_ALLZERO") = none by decide +kernel] at hm
    cases hm
  · rw [hm]; exact .inr (.inl ⟨_, rfl⟩)

section
variable {F : Type} [Zero F] [One F] [Add F] [Sub F] [Mul F] [Div F] [Neg F] [NatCast F]
  [LT F] [LE F] [DecidableLT F] [DecidableLE F]

omit [Field K] [LinearOrder K] [IsStrictOrderedRing K] in
theorem run_of_fuel (env : Env n σ F) (p : Par F) :
    ∀ (fuel : Nat) (s : St n σ F) (o : Out n F), runFuel env p fuel s = some o → Run env p s o := by
  intro fuel
  induction fuel with
  | zero => intro s o h; cases h
  | succ fuel ih =>
    intro s o h
    simp only [runFuel] at h
    rcases hi : iterate env p s with s' | o'
    · rw [hi] at h
      exact .next hi (ih s' o h)
    · rw [hi] at h
      cases h
      exact .done hi

/-- A run found by computation, and some function of its result. -/
theorem lbfgs_of_fuel {α : Type} (φ : Out n F → α) (env : Env n σ F) (p : Par F) (x0 : Fin n → F) (cb : σ)
    (fuel : Nat) (a : α) (hc : check n p = none)
    (ha : ¬ already env (fillEnd n p) (start env (fillEnd n p) x0 cb))
    (h : (runFuel env (fillEnd n p) fuel (start env (fillEnd n p) x0 cb)).map φ = some a) :
    ∃ o, Lbfgs env p x0 cb o ∧ φ o = a := by
  rcases ho : runFuel env (fillEnd n p) fuel (start env (fillEnd n p) x0 cb) with _ | o
  · rw [ho] at h; cases h
  · rw [ho] at h
    exact ⟨o, .run hc ha (run_of_fuel _ _ _ _ _ ho), Option.some.inj h⟩

end

end Verif.Lbfgs
