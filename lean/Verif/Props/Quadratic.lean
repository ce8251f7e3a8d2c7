import Mathlib.LinearAlgebra.Matrix.Symmetric
import Mathlib.Data.Matrix.Mul
import Mathlib.LinearAlgebra.Matrix.Notation
import Verif.Lemmas.Quadratic
import Verif.Props.LineSearch
/-!
The default line search on quadratic objectives (C114).
-/
namespace Verif.Lbfgs
open Spec Matrix
variable {n : Nat} {σ K : Type} [Field K] [LinearOrder K] [IsStrictOrderedRing K]

/-- C114, for an objective that is quadratic along the ray: `f - a T t + a t² / 2` with minimiser `T` and
    curvature `a`.  If `k` extensions by the steps `t, 5 t, 21 t, ...` reach the minimiser, the search
    succeeds with at most `k + 2` evaluations (the returned code is their number); the step is the
    minimiser, or the minimiser of the objective with the slope of the sufficient decrease subtracted, or
    one of the extensions. -/
theorem C114_ray (env : Env n σ K) (p : Par K) (x : Fin n → K) (f : K) (g s : Fin n → K) (stp a T : K)
    (hsq : ∀ z, 0 ≤ z → env.sqrt (z * z) = z) (ha : 0 < a) (hT : 0 < T)
    (hslope : g ⬝ᵥ s = -(a * T))
    (hvalue : ∀ t, (env.eval fun i => x i + t * s i).1 = f - a * T * t + a / 2 * t ^ 2)
    (hgrad : ∀ t, (env.eval fun i => x i + t * s i).2 ⬝ᵥ s = a * (t - T))
    (hftol : 0 ≤ p.ftol ∧ p.ftol ≤ 1 / 2 ∧ p.ftol ≤ p.gtol) (hgtol : p.gtol < 1) (hxtol : p.xtol ≤ 3 / 4)
    (hmin : 0 < p.minStep ∧ p.minStep < stp ∧ p.minStep < (1 - p.ftol) * T)
    (k : Nat) (hk : T ≤ stp * ((4 ^ (k + 1) - 1) / 3))
    (hmax : stp * ((4 ^ (k + 1) - 1) / 3) + p.minStep ≤ p.maxStep)
    (hls : (k : Int) + 2 < p.maxLinesearch) :
    let r := moreThuente env p x f g s stp
    1 ≤ r.ret ∧ r.ret ≤ k + 2 ∧ (r.trials.length : Int) = r.ret ∧ r.x = (fun i => x i + r.step * s i) ∧
    (r.step = T ∨ r.step = (1 - p.ftol) * T ∨
      ∃ i : Nat, r.ret = i + 1 ∧ r.step = stp * ((4 ^ (i + 1) - 1) / 3)) := by
  have hstp : 0 < stp := hmin.1.trans hmin.2.1
  have hd : vecdot g s = -(a * T) := (vecdot_eq _ _).trans hslope
  have hpos : 0 < stp * (((4 : K) ^ (k + 1) - 1) / 3) := by
    have := expand_lt hstp (Nat.zero_lt_succ k)
    simpa [expand] using this
  have hout := mtLoop_quad (env := env) (xp := x) (s := s) (f := f) (p := p)
    ⟨hftol, hgtol, hxtol⟩ hsq ⟨hvalue, fun t => (vecdot_eq _ _).trans (hgrad t)⟩ ha hT hmin k hk hmax hls
    (const 2 1 * (p.maxStep - p.minStep)) (p.maxStep - p.minStep)
    (by
      have : (const 2 1 : K) = 2 := by simp [const]
      rw [this]
      unfold expand
      linarith)
    k 0 ⟨0, f, -(a * T), 0, f, -(a * T), stp, false⟩ true [] p.maxLinesearch.toNat (by omega) (by omega)
    (by omega) (by simp [expand]) (by simp [expand]; norm_num) (by simp) (by simp) rfl
    (mul_pos (by linarith) hT)
  have hmt : moreThuente env p x f g s stp =
      mtLoop env p x s f (-(a * T)) p.maxLinesearch.toNat 0 ⟨0, f, -(a * T), 0, f, -(a * T), stp, false⟩ true
        (p.maxStep - p.minStep) (const 2 1 * (p.maxStep - p.minStep)) 0 [] := by
    unfold moreThuente
    dsimp only
    rw [if_neg (not_le.2 hstp), hd, if_neg (not_lt.2 (by have := mul_pos ha hT; linarith))]
  dsimp only
  rw [hmt]
  obtain ⟨⟨h1, h2⟩, h3, h4, h5⟩ := hout
  refine ⟨by omega, h2, ?_, h4, h5⟩
  simpa using h3

/-- C114, for a quadratic objective `y·A y / 2 - b·y + e` with its gradient `A y - b`: whatever the point and
    the descent direction, if the curvature along the direction is positive. -/
theorem C114_quadratic (env : Env n σ K) (p : Par K) (A : Matrix (Fin n) (Fin n) K) (hA : A.IsSymm)
    (b : Fin n → K) (e : K)
    (heval : ∀ y, env.eval y = (y ⬝ᵥ A *ᵥ y / 2 - b ⬝ᵥ y + e, A *ᵥ y - b))
    (hsq : ∀ z, 0 ≤ z → env.sqrt (z * z) = z) (x s : Fin n → K) (stp : K)
    (ha : 0 < s ⬝ᵥ A *ᵥ s) (hd : (A *ᵥ x - b) ⬝ᵥ s < 0)
    (T : K) (hT : T = -((A *ᵥ x - b) ⬝ᵥ s) / (s ⬝ᵥ A *ᵥ s))
    (hftol : 0 ≤ p.ftol ∧ p.ftol ≤ 1 / 2 ∧ p.ftol ≤ p.gtol) (hgtol : p.gtol < 1) (hxtol : p.xtol ≤ 3 / 4)
    (hmin : 0 < p.minStep ∧ p.minStep < stp ∧ p.minStep < (1 - p.ftol) * T)
    (k : Nat) (hk : T ≤ stp * ((4 ^ (k + 1) - 1) / 3))
    (hmax : stp * ((4 ^ (k + 1) - 1) / 3) + p.minStep ≤ p.maxStep)
    (hls : (k : Int) + 2 < p.maxLinesearch) :
    (∀ t : K, (env.eval (x + T • s)).1 ≤ (env.eval (x + t • s)).1) ∧
    let r := moreThuente env p x (env.eval x).1 (env.eval x).2 s stp
    1 ≤ r.ret ∧ r.ret ≤ k + 2 ∧ (r.trials.length : Int) = r.ret ∧ r.x = x + r.step • s ∧
    (r.step = T ∨ r.step = (1 - p.ftol) * T ∨
      ∃ i : Nat, r.ret = i + 1 ∧ r.step = stp * ((4 ^ (i + 1) - 1) / 3)) := by
  have hTpos : 0 < T := by rw [hT]; exact div_pos (neg_pos.2 hd) ha
  have hTd : (A *ᵥ x - b) ⬝ᵥ s = -(s ⬝ᵥ A *ᵥ s * T) := by
    rw [hT]; field_simp
  have hray : ∀ t : K, (fun i => x i + t * s i) = x + t • s := fun t => by
    funext i; simp
  have hsymm : s ⬝ᵥ A *ᵥ x = x ⬝ᵥ A *ᵥ s := by
    rw [dotProduct_mulVec, ← mulVec_transpose, hA.eq, dotProduct_comm]
  have hexp : ∀ t : K, (env.eval (x + t • s)).1 =
      (env.eval x).1 - s ⬝ᵥ A *ᵥ s * T * t + s ⬝ᵥ A *ᵥ s / 2 * t ^ 2 := by
    intro t
    rw [heval, heval]
    have h1 : -(s ⬝ᵥ A *ᵥ s * T) = x ⬝ᵥ A *ᵥ s - b ⬝ᵥ s := by
      rw [← hTd, sub_dotProduct, dotProduct_comm (A *ᵥ x) s, hsymm]
    dsimp only
    rw [mulVec_add, mulVec_smul, add_dotProduct, dotProduct_add, dotProduct_add, smul_dotProduct,
      smul_dotProduct, dotProduct_smul, dotProduct_smul, dotProduct_add, dotProduct_smul, hsymm]
    simp only [smul_eq_mul]
    linear_combination (-t) * h1
  have hgr : ∀ t : K, (env.eval (x + t • s)).2 ⬝ᵥ s = s ⬝ᵥ A *ᵥ s * (t - T) := by
    intro t
    rw [heval]
    dsimp only
    rw [mulVec_add, mulVec_smul, add_sub_right_comm, add_dotProduct, hTd, smul_dotProduct, smul_eq_mul,
      dotProduct_comm (A *ᵥ s) s]
    ring
  constructor
  · intro t
    rw [hexp, hexp]
    have : 0 ≤ s ⬝ᵥ A *ᵥ s / 2 * (t - T) ^ 2 := by positivity
    nlinarith
  · have := C114_ray env p x (env.eval x).1 (env.eval x).2 s stp (s ⬝ᵥ A *ᵥ s) T hsq ha hTpos
      (by rw [heval]; exact hTd) (fun t => by rw [hray, hexp]) (fun t => by rw [hray, hgr]) hftol hgtol hxtol
      hmin k hk hmax hls
    dsimp only at this ⊢
    rw [← hray]
    exact this

theorem ratSqrt_sq (z : ℚ) (h : 0 ≤ z) : Rat.sqrt (z * z) = z := by
  rw [Rat.sqrt_eq, abs_of_nonneg h]

/-- Non-vacuous: `x²/2` from 8 along -8, minimiser at step 1.  First step 3/2 needs two evaluations (bracket,
    then the minimiser); 1/10 is extended to 1/2 and then the minimiser is tried. -/
example : let p : Par ℚ := ⟨5, 0, 0, 0, 0, LS_MORETHUENTE, 20, 1/1000, 100, 1/4, 1/2, 1/3, 1/10, 0, 0, 1⟩
    (moreThuente exSq p ![8] 32 ![8] ![-8] (3 / 2)).ret = 2 ∧
    (moreThuente exSq p ![8] 32 ![8] ![-8] (3 / 2)).step = 1 ∧
    (moreThuente exSq p ![8] 32 ![8] ![-8] (1 / 10)).ret = 3 ∧
    (moreThuente exSq p ![8] 32 ![8] ![-8] (1 / 10)).step = 1 := by decide +kernel

/-- The theorem applies to the second of these with `k = 2`. -/
example : let p : Par ℚ := ⟨5, 0, 0, 0, 0, LS_MORETHUENTE, 20, 1/1000, 100, 1/4, 1/2, 1/3, 1/10, 0, 0, 1⟩
    (moreThuente exSq p ![8] 32 ![8] ![-8] (1 / 10)).ret ≤ 2 + 2 := by
  intro p
  refine (C114_ray exSq p ![8] 32 ![8] ![-8] (1 / 10) 64 1 ratSqrt_sq (by norm_num) (by norm_num)
    (by simp [dotProduct]; norm_num) (fun t => ?_) (fun t => ?_) (by norm_num [p]) (by norm_num [p]) (by norm_num [p])
    (by norm_num [p]) 2 (by norm_num) (by norm_num [p]) (by decide)).2.1
  · simp [exSq]; ring
  · simp [exSq, dotProduct]; ring

/-- `y₀² + y₀ y₁ + 3/2 y₁² - y₁` with its gradient. -/
def exQuad2 : Env 2 Unit ℚ :=
  ⟨Rat.sqrt, fun y => (y ⬝ᵥ !![2, 1; 1, 3] *ᵥ y / 2 - ![0, 1] ⬝ᵥ y + 0, !![2, 1; 1, 3] *ᵥ y - ![0, 1]),
    fun s _ _ _ _ _ _ _ _ => (0, s)⟩

/-- From (1, 1) along the negative gradient (-3, -3) the minimiser is at step 2/7; the first step 1 is too
    long. -/
example : let p : Par ℚ := ⟨5, 0, 0, 0, 0, LS_MORETHUENTE, 20, 1/1000, 100, 1/4, 1/2, 1/3, 1/10, 0, 0, 2⟩
    (moreThuente exQuad2 p ![1, 1] (exQuad2.eval ![1, 1]).1 (exQuad2.eval ![1, 1]).2 ![-3, -3] 1).ret ≤ 0 + 2 := by
  intro p
  exact (C114_quadratic exQuad2 p !![2, 1; 1, 3] (by ext i j; fin_cases i <;> fin_cases j <;> rfl) ![0, 1] 0
    (fun y => rfl) ratSqrt_sq ![1, 1] ![-3, -3] 1 (by simp [mulVec, dotProduct, Fin.sum_univ_two]; norm_num)
    (by simp [dotProduct, Fin.sum_univ_two]; norm_num) (2 / 7)
    (by simp [mulVec, dotProduct, Fin.sum_univ_two]; norm_num) (by norm_num [p]) (by norm_num [p])
    (by norm_num [p]) (by norm_num [p]) 0 (by norm_num) (by norm_num [p]) (by decide)).2.2.1

end Verif.Lbfgs
