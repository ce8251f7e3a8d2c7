import Verif.Lemmas.WolfeConverge
import Verif.Props.Converge
/-! From successful line searches to the result of `fmin_lbfgs` (C134). -/
namespace Verif.Lbfgs
open Finset Spec Matrix

variable {n : Nat} {σ K : Type} [Field K] [LinearOrder K] [IsStrictOrderedRing K]

theorem fmin_of_search [Archimedean K] (c : Callables n σ K) (hsq : IsSqrt c.sqrt) {F : (Fin n → K) → K}
    {G : (Fin n → K) → Fin n → K} (hf : ∀ x, c.f x = (.ok (F x), G x))
    (hpr : ∀ cb x g f xn gn st k ls, (c.progress cb x g f xn gn st k ls).1 = .ok none ∨
      (c.progress cb x g f xn gn st k ls).1 = .ok (some 0))
    {mu L B : K} (hG : StrongSmooth G mu L) (hB : ∀ x, B ≤ F x) (a : Args K) {j : Int}
    (hls : a.lineSearch = "wolfe" ∧ j = 2 ∨ a.lineSearch = "strongwolfe" ∧ j = 3)
    (hck : ∀ e, ¬ Violates n { a.par with linesearch := j } e)
    (hc : a.par.c = 0) (hm : 1 ≤ a.par.m) (he : 0 < a.par.epsilon) (hpast : a.par.past = 0)
    (hit : a.par.maxIterations = 0) (hf0 : 0 < a.par.ftol) (x0 : Fin n → K) (cb : σ)
    (hsearch : ∀ s, Reach c.env { a.par with linesearch := j } x0 cb s →
      0 ≤ (lineSearch c.env (fillEnd n { a.par with linesearch := j }) s).ret) :
    (∃ res tr, Fmin c a x0 cb res tr) ∧
    ∀ res tr, Fmin c a x0 cb res tr → ∃ x, res = .returned x none ∧
      dot (G x) (G x) ≤ a.par.epsilon ^ 2 * max 1 (dot x x) ∧
      ∀ z, (∀ i, G z i = 0) → mu ^ 2 * dot (fun i => x i - z i) (fun i => x i - z i) ≤
        a.par.epsilon ^ 2 * max 1 (dot x x) := by
  have e1 : (fun x => (c.env.eval x).1) = F := by funext x; simp only [Callables.env]; rw [hf]
  have e2 : (fun x => (c.env.eval x).2) = G := by funext x; simp only [Callables.env]; rw [hf]
  have hG' : StrongSmooth (fun x => (c.env.eval x).2) mu L := by rw [e2]; exact hG
  have hB' : ∀ x, B ≤ (c.env.eval x).1 := fun x => by rw [congrFun e1 x]; exact hB x
  have hp' : ∀ cb x g a b d e k l, (c.env.progress cb x g a b d e k l).1 = 0 := by
    intro cb x g a b d e k l
    simp only [Callables.env]
    rcases hpr cb x g a b d e k l with h | h <;> rw [h]
  have hpar : fminPar a = .ok { a.par with linesearch := j } := by
    unfold fminPar chooseSearch
    rw [if_neg (by rw [hc]; simp), if_neg (by rw [hc]; simp), if_neg (by rw [hc]; simp)]
    rcases hls with ⟨h, rfl⟩ | ⟨h, rfl⟩ <;> rw [h] <;> rfl
  have hj0 : j ≠ 0 := by rcases hls with ⟨_, rfl⟩ | ⟨_, rfl⟩ <;> decide
  have hj1 : j ≠ 1 := by rcases hls with ⟨_, rfl⟩ | ⟨_, rfl⟩ <;> decide
  have hck' := (C71_accepted_partial { a.par with linesearch := j }).2 hck
  obtain ⟨o, ho⟩ : ∃ o, Lbfgs c.env { a.par with linesearch := j } x0 cb o :=
    C116_ends c.env hsq mu L _ hG' hB' { a.par with linesearch := j } hc hm he hj1 (fun h => absurd h hj0) hf0 x0 cb
  refine ⟨⟨_, _, .run hpar ho⟩, fun res tr h => ?_⟩
  cases h with
  | bad h => rw [hpar] at h; cases h
  | @run p o h ho =>
    rw [hpar] at h
    cases h
    have hcode : o.ret = 0 ∨ (o.ret = 2 ∧ o.reports = []) := by
      cases ho with
      | rejected h => rw [hck'] at h; cases h
      | already => exact .inr ⟨rfl, rfl⟩
      | run _ ha hr =>
        rcases codes_of_search hp' hsearch hr (.start hck' ha) with h | ⟨_, h⟩ | ⟨_, h⟩
        · exact .inl h
        · exact absurd hpast h.ne'
        · exact absurd hit h
    refine ⟨o.x, ?_, ?_, fun z hz => ?_⟩
    · unfold finish
      rw [if_pos]
      rcases hcode with h | ⟨h, _⟩ <;> rw [h] <;> decide +kernel
    · have := C84_criterion c.env hsq _ x0 cb o ho hcode _ rfl
      simp only [if_pos hc] at this
      rw [← e2]
      exact this
    · exact C116_accuracy c.env hsq mu L hG' { a.par with linesearch := j } hc x0 cb o ho hcode z (fun i => by
        rw [← e2] at hz; exact hz i)

/-- A quadratic along a direction. -/
theorem quad_line {A : Matrix (Fin n) (Fin n) K} (hA : A.IsSymm) (b : Fin n → K) (x d : Fin n → K) (t : K) :
    (A *ᵥ vecadd x d t - b) ⬝ᵥ d = (A *ᵥ x - b) ⬝ᵥ d + t * (d ⬝ᵥ A *ᵥ d) ∧
      vecadd x d t ⬝ᵥ A *ᵥ vecadd x d t / 2 - b ⬝ᵥ vecadd x d t =
        x ⬝ᵥ A *ᵥ x / 2 - b ⬝ᵥ x + t * ((A *ᵥ x - b) ⬝ᵥ d) + t ^ 2 * (d ⬝ᵥ A *ᵥ d) / 2 := by
  have e : vecadd x d t = x + t • d := by funext i; rfl
  have hs : x ⬝ᵥ A *ᵥ d = d ⬝ᵥ A *ᵥ x := by
    rw [dotProduct_mulVec, ← mulVec_transpose, hA.eq, dotProduct_comm]
  rw [e]
  constructor
  · simp only [mulVec_add, mulVec_smul, sub_dotProduct, add_dotProduct, smul_dotProduct, smul_eq_mul]
    rw [dotProduct_comm (A *ᵥ d) d]
    ring
  · simp only [mulVec_add, mulVec_smul, add_dotProduct, dotProduct_add, smul_dotProduct, dotProduct_smul,
      smul_eq_mul, sub_dotProduct]
    rw [hs, dotProduct_comm (A *ᵥ x) d]
    ring

end Verif.Lbfgs
