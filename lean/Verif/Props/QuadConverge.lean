import Verif.Lemmas.QuadConverge
import Verif.Props.Converge
/-!
The default parameters of `fmin_lbfgs` on strongly convex quadratics (C118).
-/
namespace Verif.Lbfgs
open Finset Spec Matrix

variable {n : Nat} {σ K : Type} [Field K] [LinearOrder K] [IsStrictOrderedRing K]

/-! ### C118 -/

/-- C118.  `fmin_lbfgs` with its default (More-Thuente) line search, without the delta-based stop and without a
    limit on the iterations, on a quadratic `y·Ay/2 - b·y + e` whose symmetric matrix has its eigenvalues
    between `mu` and `L`: it always returns, without a warning, a point at which the gradient is at most
    `epsilon * max(1, |x|)` and whose distance to the minimiser is at most `epsilon * max(1, |x|) / mu`.
    Here `M` bounds the gradient at the starting point, and `max_linesearch > k + 2` suffices when
    `M <= mu * l * (4^(k+1) - 1) / 3`. -/
theorem C118_fmin [Archimedean K] (c : Callables n σ K) (hsq : IsSqrt c.sqrt) (A : Matrix (Fin n) (Fin n) K)
    (hA : A.IsSymm) (b : Fin n → K) (e : K)
    (hf : ∀ y, c.f y = (.ok (y ⬝ᵥ A *ᵥ y / 2 - b ⬝ᵥ y + e), A *ᵥ y - b))
    (hpr : ∀ cb x g f xn gn st k ls, (c.progress cb x g f xn gn st k ls).1 = .ok none ∨
      (c.progress cb x g f xn gn st k ls).1 = .ok (some 0))
    (mu L : K) (hmu : 0 < mu) (hL : 0 < L) (hlo : ∀ v : Fin n → K, mu * (v ⬝ᵥ v) ≤ v ⬝ᵥ A *ᵥ v)
    (hup : ∀ v : Fin n → K, A *ᵥ v ⬝ᵥ A *ᵥ v ≤ L ^ 2 * (v ⬝ᵥ v))
    (a : Args K) (hls : a.lineSearch = "default" ∨ a.lineSearch = "morethuente")
    (hck : ∀ e, ¬ Violates n { a.par with linesearch := 0 } e)
    (hc : a.par.c = 0) (hm : 1 ≤ a.par.m) (he : 0 < a.par.epsilon) (hpast : a.par.past = 0)
    (hit : a.par.maxIterations = 0) (hf0 : 0 < a.par.ftol) (hf1 : a.par.ftol ≤ 1 / 2)
    (hfg : a.par.ftol ≤ a.par.gtol) (hgt : a.par.gtol < 1) (hxtol : a.par.xtol ≤ 3 / 4)
    (x0 : Fin n → K) (cb : σ) (M : K) (hM : 1 ≤ M) (hg0 : (A *ᵥ x0 - b) ⬝ᵥ (A *ᵥ x0 - b) ≤ M ^ 2) (k : Nat)
    (hk : M ≤ mu * descent mu L a.par.m.toNat * ((4 ^ (k + 1) - 1) / 3)) (hls2 : (k : Int) + 2 < a.par.maxLinesearch)
    (hmin0 : 0 < a.par.minStep) (hmin1 : a.par.minStep < 1 / M)
    (hmin2 : a.par.minStep < reachStep a.par.ftol mu L a.par.m.toNat)
    (hmax : max 1 (1 / a.par.epsilon) * ((4 ^ (k + 1) - 1) / 3) + a.par.minStep ≤ a.par.maxStep) :
    (∃ res tr, Fmin c a x0 cb res tr) ∧
    ∀ res tr, Fmin c a x0 cb res tr → ∃ x, res = .returned x none ∧
      (A *ᵥ x - b) ⬝ᵥ (A *ᵥ x - b) ≤ a.par.epsilon ^ 2 * max 1 (x ⬝ᵥ x) ∧
      ∀ z, A *ᵥ z = b → mu ^ 2 * ((x - z) ⬝ᵥ (x - z)) ≤ a.par.epsilon ^ 2 * max 1 (x ⬝ᵥ x) := by
  have heval : ∀ y, c.env.eval y = (y ⬝ᵥ A *ᵥ y / 2 - b ⬝ᵥ y + e, A *ᵥ y - b) := by
    intro y; simp only [Callables.env]; rw [hf]
  have e2 : (fun x => (c.env.eval x).2) = fun y => A *ᵥ y - b := by funext x; rw [heval]
  have hG : StrongSmooth (fun x => (c.env.eval x).2) mu L := by rw [e2]; exact quad_strong hmu hL hlo hup
  have hB' : ∀ x, e - b ⬝ᵥ b / (2 * mu) ≤ (c.env.eval x).1 := fun x => by
    rw [heval]
    have h1 := hlo x
    have h2 : 0 ≤ (mu • x - b) ⬝ᵥ (mu • x - b) := dot_nonneg _
    have h3 : (mu • x - b) ⬝ᵥ (mu • x - b) = mu * (mu * (x ⬝ᵥ x)) - 2 * mu * (b ⬝ᵥ x) + b ⬝ᵥ b := by
      simp only [sub_dotProduct, dotProduct_sub, smul_dotProduct, dotProduct_smul, smul_eq_mul, dotProduct_comm x b]
      ring
    have h4 : 0 ≤ (mu * (mu * (x ⬝ᵥ x)) - 2 * mu * (b ⬝ᵥ x) + b ⬝ᵥ b) / (2 * mu) := by rw [← h3]; positivity
    have h5 : (mu * (mu * (x ⬝ᵥ x)) - 2 * mu * (b ⬝ᵥ x) + b ⬝ᵥ b) / (2 * mu)
        = mu * (x ⬝ᵥ x) / 2 - b ⬝ᵥ x + b ⬝ᵥ b / (2 * mu) := by field_simp
    show _ ≤ x ⬝ᵥ A *ᵥ x / 2 - b ⬝ᵥ x + e
    linarith
  have hp' : ∀ cb x g a b d e k l, (c.env.progress cb x g a b d e k l).1 = 0 := by
    intro cb x g a b d e k l
    simp only [Callables.env]
    rcases hpr cb x g a b d e k l with h | h <;> rw [h]
  have hpar : fminPar a = .ok { a.par with linesearch := 0 } := by
    unfold fminPar chooseSearch
    rw [if_neg (by rw [hc]; simp), if_neg (by rw [hc]; simp), if_neg (by rw [hc]; simp)]
    rcases hls with h | h <;> rw [h] <;> rfl
  have hck' := (C71_accepted_partial { a.par with linesearch := 0 }).2 hck
  obtain ⟨o, ho⟩ : ∃ o, Lbfgs c.env { a.par with linesearch := 0 } x0 cb o :=
    C116_ends c.env hsq mu L _ hG hB' { a.par with linesearch := 0 } hc hm he (show (0 : Int) ≠ 1 by decide) (fun _ => hgt) hf0 x0 cb
  refine ⟨⟨_, _, .run hpar ho⟩, fun res tr h => ?_⟩
  cases h with
  | bad h => rw [hpar] at h; cases h
  | @run p o h ho =>
    rw [hpar] at h
    cases h
    have hcode : o.ret = 0 ∨ (o.ret = 2 ∧ o.reports = []) := by
      cases ho with
      | rejected h => rw [hck'] at h; cases h
      | already => exact .inr ⟨rfl, rfl⟩
      | run _ ha hr =>
        rcases codes_of_search hp' (fun s hs => quad_search hsq hA heval hmu hL hlo hup
          (p := { a.par with linesearch := 0 }) hc hm he rfl ⟨hf0.le, hf1, hfg⟩ hgt hxtol hM
          (by rw [heval]; exact hg0) hk hls2 hmin0 hmin1 hmin2 hmax hs) hr (.start hck' ha) with h | ⟨_, h⟩ | ⟨_, h⟩
        · exact .inl h
        · exact absurd hpast h.ne'
        · exact absurd hit h
    refine ⟨o.x, ?_, ?_, fun z hz => ?_⟩
    · unfold finish
      rw [if_pos]
      rcases hcode with h | ⟨h, _⟩ <;> rw [h] <;> decide +kernel
    · have := C84_criterion c.env hsq _ x0 cb o ho hcode _ rfl
      simp only [if_pos hc, heval] at this
      exact this
    · exact C116_accuracy c.env hsq mu L hG { a.par with linesearch := 0 } hc x0 cb o ho hcode z (fun i => by
        rw [heval]
        show (A *ᵥ z - b) i = 0
        rw [hz, sub_self]; rfl)

/-- `(y₀² + 2 y₁²) / 2 - y₁` over the reals, for `fmin_lbfgs`. -/
noncomputable def exBowl2 : Callables 2 Unit ℝ :=
  ⟨Real.sqrt, fun y => (.ok (y ⬝ᵥ !![1, 0; 0, 2] *ᵥ y / 2 - ![0, 1] ⬝ᵥ y + 0), !![1, 0; 0, 2] *ᵥ y - ![0, 1]),
    fun s _ _ _ _ _ _ _ _ => (.ok none, s)⟩

/-- With all default parameters, from every point with a gradient of norm at most a million, the
    minimiser `(0, 1/2)` is found to within `10⁻⁵ max(1, |x|)`. -/
example (x0 : Fin 2 → ℝ) (hx0 : x0 0 ^ 2 + (2 * x0 1 - 1) ^ 2 ≤ (10 ^ 6) ^ 2) :
    ∃ x tr, Fmin exBowl2
      ⟨⟨10, 1/10^5, 0, 0, 0, 0, 20, 1/10^20, 10^20, 1/10^4, 9/10, 9/10, 1/10^30, 0, 0, -1⟩, "default"⟩ x0 ()
      (.returned x none) tr ∧
    x 0 ^ 2 + (x 1 - 1/2) ^ 2 ≤ (1/10^5) ^ 2 * max 1 (x 0 ^ 2 + x 1 ^ 2) := by
  obtain ⟨⟨res, tr, h⟩, h2⟩ := C118_fmin exBowl2 (fun v hv => ⟨Real.sqrt_nonneg v, Real.mul_self_sqrt hv⟩)
    !![1, 0; 0, 2] (by ext i j; fin_cases i <;> fin_cases j <;> rfl) ![0, 1] 0
    (fun _ => rfl) (fun _ _ _ _ _ _ _ _ _ => .inl rfl) 1 2 one_pos two_pos
    (fun v => by simp [mulVec, dotProduct, Fin.sum_univ_two]; nlinarith [sq_nonneg (v 1)])
    (fun v => by simp [mulVec, dotProduct, Fin.sum_univ_two]; nlinarith [sq_nonneg (v 0)])
    ⟨⟨10, 1/10^5, 0, 0, 0, 0, 20, 1/10^20, 10^20, 1/10^4, 9/10, 9/10, 1/10^30, 0, 0, -1⟩, "default"⟩ (.inl rfl)
    (fun e he => by cases he <;> norm_num at *) rfl (by decide) (by norm_num) rfl rfl (by norm_num) (by norm_num)
    (by norm_num) (by norm_num) (by norm_num) x0 () (10 ^ 6) (by norm_num)
    (by simp [dotProduct, Fin.sum_univ_two]; nlinarith [hx0]) 17
    (by norm_num [descent, lower, show Int.toNat 10 = 10 from rfl]) (by decide) (by norm_num) (by norm_num)
    (by norm_num [reachStep, upper, show Int.toNat 10 = 10 from rfl]) (by norm_num)
  obtain ⟨x, rfl, _, hx⟩ := h2 _ _ h
  refine ⟨x, tr, h, ?_⟩
  have := hx ![0, 1/2] (by ext i; fin_cases i <;> simp [mulVec, dotProduct, Fin.sum_univ_two])
  simp [dotProduct, Fin.sum_univ_two] at this
  simpa [sq] using this

end Verif.Lbfgs
