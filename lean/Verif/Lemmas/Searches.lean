import Verif.Lemmas.LbfgsLoop
import Verif.Props.LineSearch
import Verif.Spec.Searches
/-! Helper lemmas about the named line searches. -/
namespace Verif.Lbfgs
open Finset Spec
variable {n : Nat} {σ K : Type} [Field K] [LinearOrder K] [IsStrictOrderedRing K]

omit [IsStrictOrderedRing K] in
theorem fminPar_plain {a : Args K} {p : Par K} (h0 : a.par.c = 0) (h : fminPar a = .ok p) :
    (a.lineSearch = "default" ∧ p = { a.par with linesearch := LS_MORETHUENTE }) ∨
    (a.lineSearch = "morethuente" ∧ p = { a.par with linesearch := LS_MORETHUENTE }) ∨
    (a.lineSearch = "armijo" ∧ p = { a.par with linesearch := LS_ARMIJO }) ∨
    (a.lineSearch = "wolfe" ∧ p = { a.par with linesearch := LS_WOLFE }) ∨
    (a.lineSearch = "strongwolfe" ∧ p = { a.par with linesearch := LS_STRONG }) := by
  have hs : (chooseSearch a).1 = a.lineSearch := by
    unfold chooseSearch
    rw [h0, if_neg (fun h => lt_irrefl _ h.1), if_neg (fun h => lt_irrefl _ h.1)]
  unfold fminPar at h
  rw [if_neg (by rw [h0, not_not]), hs] at h
  by_cases h1 : a.lineSearch = "default"
  · rw [h1] at h; exact .inl ⟨h1, (Except.ok.inj h).symm⟩
  by_cases h2 : a.lineSearch = "morethuente"
  · rw [h2] at h; exact .inr (.inl ⟨h2, (Except.ok.inj h).symm⟩)
  by_cases h3 : a.lineSearch = "armijo"
  · rw [h3] at h; exact .inr (.inr (.inl ⟨h3, (Except.ok.inj h).symm⟩))
  by_cases h4 : a.lineSearch = "wolfe"
  · rw [h4] at h; exact .inr (.inr (.inr (.inl ⟨h4, (Except.ok.inj h).symm⟩)))
  by_cases h5 : a.lineSearch = "strongwolfe"
  · rw [h5] at h; exact .inr (.inr (.inr (.inr ⟨h5, (Except.ok.inj h).symm⟩)))
  exfalso
  have : lineSearchAlgo.lookup a.lineSearch = none := by
    unfold lineSearchAlgo
    simp only [List.lookup]
    rw [beq_false_of_ne h1, beq_false_of_ne h2, beq_false_of_ne h3, beq_false_of_ne h4,
      beq_false_of_ne h5]
  rw [this] at h
  cases h

omit [LinearOrder K] [IsStrictOrderedRing K] in
theorem dot_step (g d : Fin n → K) (x y : Fin n → K) (a : K) (h : ∀ i, y i = x i + a * d i) :
    dot g (fun i => y i - x i) = a * dot g d := by
  unfold dot
  rw [mul_sum]
  refine sum_congr rfl fun i _ => ?_
  dsimp only
  rw [h]; ring

/-- An accepted search without penalty obeys the conditions belonging to its number. -/
theorem lineSearch_conds {env : Env n σ K} {p : Par K} (ok : Ok n p) (hc : p.c = 0) (s : St n σ K)
    (h : 0 ≤ (lineSearch env p s).ret) :
    let r := lineSearch env p s
    0 ≤ r.step ∧ (∀ i, r.x i = s.x i + r.step * s.d i) ∧ env.eval r.x = (r.f, r.g) ∧
    Armijo p.ftol s.fx (dot s.g s.d) r.step r.f ∧
    (p.linesearch = LS_WOLFE ∨ p.linesearch = LS_STRONG → Wolfe p.wolfe (dot s.g s.d) (dot r.g s.d)) ∧
    (p.linesearch = LS_STRONG → StrongWolfe p.wolfe (dot s.g s.d) (dot r.g s.d)) ∧
    (p.linesearch = LS_MORETHUENTE → StrongWolfe p.gtol (dot s.g s.d) (dot r.g s.d)) := by
  dsimp only
  unfold lineSearch at h ⊢
  rw [if_pos (feq_iff.2 hc)] at h ⊢
  by_cases hm : p.linesearch = LS_MORETHUENTE
  · rw [if_pos hm] at h ⊢
    obtain ⟨_, h2⟩ := C65_morethuente env p s.x s.fx s.g s.d s.step ok.maxLs ok.minStep ok.maxStep
    obtain ⟨_, _, h3, h4, h5, h6, h7⟩ := h2 h
    refine ⟨h3, h4, h5, h6, ?_, ?_, fun _ => h7⟩
    · rw [hm]; intro h; rcases h with h | h <;> exact absurd h (by decide)
    · rw [hm]; intro h; exact absurd h (by decide)
  · rw [if_neg hm] at h ⊢
    obtain ⟨_, h2⟩ := C65_backtracking env p s.x s.fx s.g s.d s.step ok.maxLs
    obtain ⟨_, _, h3, h4, h5, h6, h7, h8⟩ := h2 h
    exact ⟨h3.le, h4, h5, h6, fun h => h.elim h7 fun h => (h8 h).1, fun h => (h8 h).2,
      fun h => absurd h hm⟩

/-- What the numbers of the searches mean, on points. -/
def Accepts' (p : Par K) (old new : Pt n K) : Prop :=
  let before := dot old.g fun i => new.x i - old.x i
  let after := dot new.g fun i => new.x i - old.x i
  new.f ≤ old.f + p.ftol * before ∧
  (p.linesearch = LS_WOLFE ∨ p.linesearch = LS_STRONG → p.wolfe * before ≤ after) ∧
  (p.linesearch = LS_STRONG → |after| ≤ p.wolfe * |before|) ∧
  (p.linesearch = LS_MORETHUENTE → |after| ≤ p.gtol * |before|)

theorem accepts_step {env : Env n σ K} {p : Par K} (ok : Ok n p) (hc : p.c = 0) (s : St n σ K)
    (h : 0 ≤ (lineSearch env p s).ret) :
    Accepts' p ⟨s.x, s.fx, s.g⟩
      ⟨(lineSearch env p s).x, (lineSearch env p s).f, (lineSearch env p s).g⟩ := by
  obtain ⟨h1, h2, _, h4, h5, h6, h7⟩ := lineSearch_conds ok hc s h
  unfold Accepts'
  dsimp only
  rw [dot_step _ _ _ _ _ h2, dot_step _ _ _ _ _ h2]
  refine ⟨h4, fun h => ?_, fun h => ?_, fun h => ?_⟩
  · have := mul_le_mul_of_nonneg_left (h5 h) h1
    rw [← mul_assoc, mul_comm p.wolfe, mul_assoc]; exact this
  · have := mul_le_mul_of_nonneg_left (h6 h) h1
    rw [abs_mul, abs_mul, abs_of_nonneg h1, ← mul_assoc, mul_comm p.wolfe, mul_assoc]; exact this
  · have := mul_le_mul_of_nonneg_left (h7 h) h1
    rw [abs_mul, abs_mul, abs_of_nonneg h1, ← mul_assoc, mul_comm p.gtol, mul_assoc]; exact this

/-- The points reported to the caller, newest first, and the starting point. -/
def points {K : Type} (env : Env n σ K) (x0 : Fin n → K) (l : List (Report n K)) : List (Pt n K) :=
  l.map (fun q => ⟨q.x, q.fx, q.g⟩) ++ [⟨x0, (env.eval x0).1, (env.eval x0).2⟩]

/-- Invariant of the loop for unpenalised calls. -/
structure Steps (env : Env n σ K) (p : Par K) (x0 : Fin n → K) (s : St n σ K) : Prop where
  pt : (points env x0 s.reports).head? = some ⟨s.x, s.fx, s.g⟩
  chain : (points env x0 s.reports).IsChain fun new old => Accepts' p old new

theorem steps_start (env : Env n σ K) (p : Par K) (hc : p.c = 0) (x0 : Fin n → K) (cb : σ) :
    Steps env p x0 (start env p x0 cb) := by
  refine ⟨?_, List.isChain_singleton _⟩
  unfold start points
  simp [feq_iff.2 hc]

omit [Field K] [LinearOrder K] [IsStrictOrderedRing K] in
theorem points_cons (env : Env n σ K) (x0 : Fin n → K) (q : Report n K) (l : List (Report n K)) :
    points env x0 (q :: l) = ⟨q.x, q.fx, q.g⟩ :: points env x0 l := rfl

theorem chain_cons {env : Env n σ K} {p : Par K} (ok : Ok n p) (hc : p.c = 0) {x0 : Fin n → K}
    {s : St n σ K} (hst : Steps env p x0 s) (h : 0 ≤ (lineSearch env p s).ret) :
    (points env x0 (rep env p s (lineSearch env p s) :: s.reports)).IsChain
      fun new old => Accepts' p old new := by
  rw [points_cons]
  rcases hl : points env x0 s.reports with _ | ⟨a, l⟩
  · exact List.isChain_singleton _
  · have h1 := hst.pt
    have h2 := hst.chain
    rw [hl] at h1 h2
    rw [Option.some.inj h1] at h2 ⊢
    exact List.isChain_cons_cons.2 ⟨accepts_step ok hc s h, h2⟩

theorem steps_run {env : Env n σ K} {p : Par K} (ok : Ok n p) (hc : p.c = 0) {x0 : Fin n → K}
    {s : St n σ K} {o : Out n K} (hrun : Run env p s o) (hst : Steps env p x0 s) :
    (points env x0 o.reports).IsChain fun new old => Accepts' p old new := by
  induction hrun with
  | @done s o h =>
    rcases iterate_inr h with ⟨_, rfl⟩ | ⟨h0, _, _, hr, _⟩
    · exact hst.chain
    · rw [hr]; exact chain_cons ok hc hst h0
  | @next s s' o h _ ih =>
    obtain ⟨h0, _, _, pf, cb, rfl⟩ := iterate_inl h
    exact ih ⟨rfl, chain_cons ok hc hst h0⟩

end Verif.Lbfgs
