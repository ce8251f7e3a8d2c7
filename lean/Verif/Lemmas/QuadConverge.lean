import Verif.Lemmas.Converge
import Verif.Props.Quadratic
/-! Helper lemmas for the default line search on strongly convex quadratics. -/
namespace Verif.Lbfgs
open Finset Spec Matrix

variable {n : Nat} {σ K : Type} [Field K] [LinearOrder K] [IsStrictOrderedRing K]

theorem Spec.IsSqrt.mul_self {sqrt : K → K} (h : IsSqrt sqrt) (z : K) (hz : 0 ≤ z) : sqrt (z * z) = z := by
  obtain ⟨h1, h2⟩ := h (z * z) (mul_self_nonneg z)
  exact (mul_self_inj h1 hz).1 h2

/-- A quadratic with bounded eigenvalues is strongly convex and smooth. -/
theorem quad_strong {A : Matrix (Fin n) (Fin n) K} {b : Fin n → K} {mu L : K} (hmu : 0 < mu) (hL : 0 < L)
    (hlo : ∀ v : Fin n → K, mu * (v ⬝ᵥ v) ≤ v ⬝ᵥ A *ᵥ v) (hup : ∀ v : Fin n → K, A *ᵥ v ⬝ᵥ A *ᵥ v ≤ L ^ 2 * (v ⬝ᵥ v)) :
    StrongSmooth (fun y => A *ᵥ y - b) mu L := by
  have e : ∀ x y : Fin n → K, (fun i => (A *ᵥ x - b) i - (A *ᵥ y - b) i) = A *ᵥ (x - y) := by
    intro x y
    funext i
    rw [mulVec_sub]
    simp
  refine ⟨hmu, hL, fun x y => ?_, fun x y => ?_⟩
  · show _ ≤ dot (fun i => (A *ᵥ x - b) i - (A *ᵥ y - b) i) _
    rw [e, dot_comm (A *ᵥ (x - y))]
    exact hlo (x - y)
  · show dot (fun i => (A *ᵥ x - b) i - (A *ᵥ y - b) i) (fun i => (A *ᵥ x - b) i - (A *ᵥ y - b) i) ≤ _
    rw [e]
    exact hup (x - y)

theorem reach_step_ge {env : Env n σ K} (hsq : IsSqrt env.sqrt) {p : Par K} (hc : p.c = 0) (he : 0 < p.epsilon)
    {x0 : Fin n → K} {cb : σ} {s : St n σ K} (h : Reach env p x0 cb s) {M : K} (hM : 1 ≤ M)
    (hg0 : dot (env.eval x0).2 (env.eval x0).2 ≤ M ^ 2) : 1 / M ≤ s.step := by
  have hgg := reach_gradient hsq hc he h
  have hM0 : 0 < M := lt_of_lt_of_le one_pos hM
  cases h with
  | start hck ha =>
    show _ ≤ 1 / vec2norm env.sqrt (start env (fillEnd n p) x0 cb).d
    unfold vec2norm
    have hdd : dot (start env (fillEnd n p) x0 cb).d (start env (fillEnd n p) x0 cb).d =
        dot (env.eval x0).2 (env.eval x0).2 := by
      refine sum_congr rfl fun i _ => ?_
      have : (start env (fillEnd n p) x0 cb).d i = - (env.eval x0).2 i := by
        show - effGrad (fillEnd n p) _ _ i = _
        unfold effGrad
        rw [if_pos (by rw [fillEnd_eq]; exact feq_iff.2 hc)]
      rw [this]; ring
    change p.epsilon ^ 2 < dot (env.eval x0).2 (env.eval x0).2 at hgg
    rw [vecdot_eq, hdd]
    obtain ⟨h1, h2⟩ := hsq _ (dot_nonneg (env.eval x0).2)
    have h3 : 0 < env.sqrt (dot (env.eval x0).2 (env.eval x0).2) := hsq.pos (lt_of_le_of_lt (sq_nonneg _) hgg)
    refine one_div_le_one_div_of_le h3 (le_of_sq_le_sq ?_ hM0.le)
    rw [sq, h2]
    exact hg0
  | next hr hi =>
    obtain ⟨_, _, _, pf, cb', rfl⟩ := iterate_inl hi
    show 1 / M ≤ 1
    rw [div_le_one hM0]
    exact hM

/-- No line search fails. -/
theorem quad_search {env : Env n σ K} (hsq : IsSqrt env.sqrt) {A : Matrix (Fin n) (Fin n) K} (hA : A.IsSymm)
    {b : Fin n → K} {e : K} (heval : ∀ y, env.eval y = (y ⬝ᵥ A *ᵥ y / 2 - b ⬝ᵥ y + e, A *ᵥ y - b)) {mu L : K}
    (hmu : 0 < mu) (hL : 0 < L) (hlo : ∀ v : Fin n → K, mu * (v ⬝ᵥ v) ≤ v ⬝ᵥ A *ᵥ v)
    (hup : ∀ v : Fin n → K, A *ᵥ v ⬝ᵥ A *ᵥ v ≤ L ^ 2 * (v ⬝ᵥ v)) {p : Par K} (hc : p.c = 0) (hm : 1 ≤ p.m)
    (he : 0 < p.epsilon) (hls : p.linesearch = 0) (hftol : 0 ≤ p.ftol ∧ p.ftol ≤ 1 / 2 ∧ p.ftol ≤ p.gtol)
    (hgt : p.gtol < 1) (hxtol : p.xtol ≤ 3 / 4) {x0 : Fin n → K} {M : K} (hM : 1 ≤ M)
    (hg0 : dot (env.eval x0).2 (env.eval x0).2 ≤ M ^ 2) {k : Nat}
    (hk : M ≤ mu * descent mu L p.m.toNat * ((4 ^ (k + 1) - 1) / 3)) (hls2 : (k : Int) + 2 < p.maxLinesearch)
    (hmin0 : 0 < p.minStep) (hmin1 : p.minStep < 1 / M) (hmin2 : p.minStep < reachStep p.ftol mu L p.m.toNat)
    (hmax : max 1 (1 / p.epsilon) * ((4 ^ (k + 1) - 1) / 3) + p.minStep ≤ p.maxStep)
    {cb : σ} {s : St n σ K} (h : Reach env p x0 cb s) : 0 ≤ (lineSearch env (fillEnd n p) s).ret := by
  have e2 : (fun x => (env.eval x).2) = fun y => A *ᵥ y - b := by funext x; rw [heval]
  have hG : StrongSmooth (fun x => (env.eval x).2) mu L := by rw [e2]; exact quad_strong hmu hL hlo hup
  obtain ⟨hck, hl, _⟩ := reach_loop h
  have ok := ok_of_check hck
  have hc' : (fillEnd n p).c = 0 := by rw [fillEnd_eq]; exact hc
  obtain ⟨hd, hdd⟩ := direction_bounds hsq hG hc hm (fun _ => hgt) h
  have hgg := reach_gradient hsq hc he h
  have hdp := descent_pos hmu hL p.m.toNat
  have hgg0 : 0 < dot s.g s.g := lt_of_le_of_lt (sq_nonneg _) hgg
  have hneg : dot s.g s.d < 0 := lt_of_le_of_lt hd (neg_lt_zero.2 (mul_pos hdp hgg0))
  have hU : 0 < max 1 (upper mu L p.m.toNat) := lt_of_lt_of_le one_pos (le_max_left _ _)
  have hM0 : 0 < M := lt_of_lt_of_le one_pos hM
  have hE : (0 : K) < (4 ^ (k + 1) - 1) / 3 := by
    have : (1 : K) < 4 ^ (k + 1) := one_lt_pow₀ (by norm_num) (by omega)
    have : (0 : K) < 4 ^ (k + 1) - 1 := by linarith
    positivity
  have hst := reach_step_ge hsq hc he h hM hg0
  have hst0 : 0 < s.step := lt_of_lt_of_le (by positivity) hst
  have hst1 := (reach_step_le hsq hc he h).1
  have hddp : 0 < dot s.d s.d := by
    refine dot_self_pos fun h0 => ?_
    rw [h0] at hneg
    simp [dot] at hneg
  have hlo' : mu * dot s.d s.d ≤ s.d ⬝ᵥ A *ᵥ s.d := hlo s.d
  have ha : 0 < s.d ⬝ᵥ A *ᵥ s.d := lt_of_lt_of_le (mul_pos hmu hddp) hlo'
  have hup' : s.d ⬝ᵥ A *ᵥ s.d ≤ L * dot s.d s.d := by
    apply le_of_sq_le_sq _ (mul_nonneg hL.le hddp.le)
    have h1 := cauchy s.d (A *ᵥ s.d)
    have h2 := mul_le_mul_of_nonneg_left (hup s.d) hddp.le
    calc (s.d ⬝ᵥ A *ᵥ s.d) ^ 2 ≤ dot s.d s.d * dot (A *ᵥ s.d) (A *ᵥ s.d) := h1
      _ ≤ dot s.d s.d * (L ^ 2 * dot s.d s.d) := h2
      _ = (L * dot s.d s.d) ^ 2 := by ring
  have hgx : A *ᵥ s.x - b = s.g := by rw [hl.inv.g, heval]
  have hslope : (A *ᵥ s.x - b) ⬝ᵥ s.d = dot s.g s.d := by rw [hgx]; rfl
  set T := -((A *ᵥ s.x - b) ⬝ᵥ s.d) / (s.d ⬝ᵥ A *ᵥ s.d) with hT
  have hTeq : T = - dot s.g s.d / (s.d ⬝ᵥ A *ᵥ s.d) := by rw [hT, hslope]
  -- the minimiser along the direction is not too far
  have hTup : T ≤ 1 / (mu * descent mu L p.m.toNat) := by
    have h1 : descent mu L p.m.toNat * - dot s.g s.d ≤ dot s.d s.d := by
      have h2 := cauchy s.g s.d
      have h3 := mul_le_mul_of_nonneg_right (show descent mu L p.m.toNat * dot s.g s.g ≤ - dot s.g s.d by linarith)
        hddp.le
      have h4 := mul_le_mul_of_nonneg_left h2 hdp.le
      refine le_of_mul_le_mul_right ?_ (neg_pos.2 hneg)
      nlinarith
    rw [hTeq, div_le_div_iff₀ ha (mul_pos hmu hdp), one_mul]
    calc - dot s.g s.d * (mu * descent mu L p.m.toNat) = mu * (descent mu L p.m.toNat * - dot s.g s.d) := by ring
      _ ≤ mu * dot s.d s.d := mul_le_mul_of_nonneg_left h1 hmu.le
      _ ≤ _ := hlo'
  -- and not too close
  have hTlo : 1 / (L * max 1 (upper mu L p.m.toNat)) ≤ T := by
    rw [hTeq, div_le_div_iff₀ (mul_pos hL hU) ha, one_mul]
    calc s.d ⬝ᵥ A *ᵥ s.d ≤ L * dot s.d s.d := hup'
      _ ≤ L * (max 1 (upper mu L p.m.toNat) * - dot s.g s.d) := mul_le_mul_of_nonneg_left hdd hL.le
      _ = _ := by ring
  have hTs : T ≤ s.step * ((4 ^ (k + 1) - 1) / 3) := by
    refine hTup.trans (le_trans ?_ (mul_le_mul_of_nonneg_right hst hE.le))
    rw [one_div_mul_eq_div, div_le_div_iff₀ (mul_pos hmu hdp) hM0, one_mul]
    linarith
  have hq := C114_quadratic env (fillEnd n p) A hA b e heval hsq.mul_self s.x s.d s.step ha
    (by rw [hslope]; exact hneg) T hT (by rw [fillEnd_eq]; exact hftol) (by rw [fillEnd_eq]; exact hgt)
    (by rw [fillEnd_eq]; exact hxtol)
    (by
      rw [fillEnd_eq]
      refine ⟨hmin0, hmin1.trans_le hst, hmin2.trans_le ?_⟩
      show (1 - p.ftol) / (L * max 1 (upper mu L p.m.toNat)) ≤ (1 - p.ftol) * T
      rw [div_eq_mul_one_div]
      exact mul_le_mul_of_nonneg_left hTlo (by linarith [hftol.2.1]))
    k hTs
    (by
      rw [fillEnd_eq]
      refine le_trans ?_ hmax
      have := mul_le_mul_of_nonneg_right hst1 hE.le
      show s.step * _ + p.minStep ≤ _
      linarith)
    (by rw [fillEnd_eq]; exact hls2)
  have e1 : s.fx = (env.eval s.x).1 := by
    rw [hl.inv.f]
    unfold obj penalised
    rw [hc', zero_mul, add_zero]
  unfold lineSearch
  rw [if_pos (feq_iff.2 hc'), if_pos (by rw [fillEnd_eq]; exact hls), e1, hl.inv.g]
  have := hq.2.1
  omega

end Verif.Lbfgs
