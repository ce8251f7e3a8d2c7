import Verif.Lemmas.WolfeFmin
import Verif.Props.QuadConverge
/-!
The line searches 'wolfe' and 'strongwolfe' of `fmin_lbfgs` on strongly convex objectives (C134).
-/
namespace Verif.Lbfgs
open Finset Spec Matrix

variable {n : Nat} {σ K : Type} [Field K] [LinearOrder K] [IsStrictOrderedRing K]

/-! ### C134 -/

/-- C134.  `fmin_lbfgs` with 'wolfe' or 'strongwolfe', without the delta-based stop and without a limit on the
    iterations, on a quadratic `y·Ay/2 - b·y + e` whose symmetric matrix has its eigenvalues between `mu` and
    `L`: whatever the ratio of `L` and `mu`, it always returns, without a warning, a point at which the
    gradient is at most `epsilon * max(1, |x|)` and whose distance to the minimiser is at most
    `epsilon * max(1, |x|) / mu`.  The acceptable steps along a line are those between `(1-wolfe) T` and
    `min(2(1-ftol), 1+wolfe) T`, `T` being the step to the minimiser on that line, and their ratio has to be at
    least the factor 2.1 by which the search lengthens its step. -/
theorem C134_quadratic [Archimedean K] (c : Callables n σ K) (hsq : IsSqrt c.sqrt) (A : Matrix (Fin n) (Fin n) K)
    (hA : A.IsSymm) (b : Fin n → K) (e : K)
    (hf : ∀ y, c.f y = (.ok (y ⬝ᵥ A *ᵥ y / 2 - b ⬝ᵥ y + e), A *ᵥ y - b))
    (hpr : ∀ cb x g f xn gn st k ls, (c.progress cb x g f xn gn st k ls).1 = .ok none ∨
      (c.progress cb x g f xn gn st k ls).1 = .ok (some 0))
    (mu L : K) (hmu : 0 < mu) (hL : 0 < L) (hlo : ∀ v : Fin n → K, mu * (v ⬝ᵥ v) ≤ v ⬝ᵥ A *ᵥ v)
    (hup : ∀ v : Fin n → K, A *ᵥ v ⬝ᵥ A *ᵥ v ≤ L ^ 2 * (v ⬝ᵥ v))
    (a : Args K) (j : Int) (hls : a.lineSearch = "wolfe" ∧ j = 2 ∨ a.lineSearch = "strongwolfe" ∧ j = 3)
    (hck : ∀ e, ¬ Violates n { a.par with linesearch := j } e)
    (hc : a.par.c = 0) (hm : 1 ≤ a.par.m) (he : 0 < a.par.epsilon) (hpast : a.par.past = 0)
    (hit : a.par.maxIterations = 0) (hf0 : 0 < a.par.ftol)
    (r : K) (hr : r = min (2 * (1 - a.par.ftol)) (1 + a.par.wolfe)) (h21 : 21 / 10 * (1 - a.par.wolfe) ≤ r)
    (x0 : Fin n → K) (cb : σ) (M : K) (hM : 1 ≤ M) (hg0 : (A *ᵥ x0 - b) ⬝ᵥ (A *ᵥ x0 - b) ≤ M ^ 2)
    (near far : K) (hnear : near = 1 / (L * max 1 (upper mu L a.par.m.toNat)))
    (hfar : far = 1 / (mu * descent mu L a.par.m.toNat))
    (hmin : a.par.minStep ≤ r * near) (hmin1 : a.par.minStep ≤ 1 / M)
    (hmax : (1 - a.par.wolfe) * far ≤ a.par.maxStep) (hmax1 : max 1 (1 / a.par.epsilon) ≤ a.par.maxStep)
    (hdown : max 1 (1 / a.par.epsilon) ≤ r * near * 2 ^ (a.par.maxLinesearch.toNat - 1))
    (hupp : (1 - a.par.wolfe) * far * M ≤ (21 / 10) ^ (a.par.maxLinesearch.toNat - 1)) :
    (∃ res tr, Fmin c a x0 cb res tr) ∧
    ∀ res tr, Fmin c a x0 cb res tr → ∃ x, res = .returned x none ∧
      (A *ᵥ x - b) ⬝ᵥ (A *ᵥ x - b) ≤ a.par.epsilon ^ 2 * max 1 (x ⬝ᵥ x) ∧
      ∀ z, A *ᵥ z = b → mu ^ 2 * ((x - z) ⬝ᵥ (x - z)) ≤ a.par.epsilon ^ 2 * max 1 (x ⬝ᵥ x) := by
  have heval : ∀ y, c.env.eval y = (y ⬝ᵥ A *ᵥ y / 2 - b ⬝ᵥ y + e, A *ᵥ y - b) := by
    intro y; simp only [Callables.env]; rw [hf]
  have e2 : (fun x => (c.env.eval x).2) = fun y => A *ᵥ y - b := by funext x; rw [heval]
  have hG : StrongSmooth (fun y => A *ᵥ y - b) mu L := quad_strong hmu hL hlo hup
  have hG' : StrongSmooth (fun x => (c.env.eval x).2) mu L := by rw [e2]; exact hG
  have hB' : ∀ x, e - b ⬝ᵥ b / (2 * mu) ≤ x ⬝ᵥ A *ᵥ x / 2 - b ⬝ᵥ x + e := fun x => by
    have h1 := hlo x
    have h2 : 0 ≤ (mu • x - b) ⬝ᵥ (mu • x - b) := dot_nonneg _
    have h3 : (mu • x - b) ⬝ᵥ (mu • x - b) = mu * (mu * (x ⬝ᵥ x)) - 2 * mu * (b ⬝ᵥ x) + b ⬝ᵥ b := by
      simp only [sub_dotProduct, dotProduct_sub, smul_dotProduct, dotProduct_smul, smul_eq_mul, dotProduct_comm x b]
      ring
    have h4 : 0 ≤ (mu * (mu * (x ⬝ᵥ x)) - 2 * mu * (b ⬝ᵥ x) + b ⬝ᵥ b) / (2 * mu) := by rw [← h3]; positivity
    have h5 : (mu * (mu * (x ⬝ᵥ x)) - 2 * mu * (b ⬝ᵥ x) + b ⬝ᵥ b) / (2 * mu)
        = mu * (x ⬝ᵥ x) / 2 - b ⬝ᵥ x + b ⬝ᵥ b / (2 * mu) := by field_simp
    linarith
  have hj : j = 2 ∨ j = 3 := hls.imp (·.2) (·.2)
  have hw : a.par.ftol < a.par.wolfe ∧ a.par.wolfe < 1 := by
    by_contra h
    exact hck _ (.wolfe (p := { a.par with linesearch := j }) hj h)
  have hr1 : r ≤ 2 * (1 - a.par.ftol) := hr ▸ min_le_left _ _
  have hr2 : r ≤ 1 + a.par.wolfe := hr ▸ min_le_right _ _
  have hw1 : 0 < 1 - a.par.wolfe := by linarith [hw.2]
  have hr0 : 0 < r := by linarith
  have hsearch : ∀ s, Reach c.env { a.par with linesearch := j } x0 cb s →
      0 ≤ (lineSearch c.env (fillEnd n { a.par with linesearch := j }) s).ret := by
    intro s h
    obtain ⟨hneg, hddp, h1, h2⟩ := direction_ratio hsq hG' (p := { a.par with linesearch := j }) hc hm
      (show j ≠ 0 by rcases hj with h | h <;> rw [h] <;> decide) he h
    obtain ⟨-, hl, _⟩ := reach_loop h
    have hdp := descent_pos hmu hL a.par.m.toNat
    have hU : 0 < max 1 (upper mu L a.par.m.toNat) := lt_of_lt_of_le one_pos (le_max_left _ _)
    have hgx : A *ᵥ s.x - b = s.g := by rw [hl.inv.g, heval]
    have hlo' : mu * dot s.d s.d ≤ s.d ⬝ᵥ A *ᵥ s.d := hlo s.d
    have ha : 0 < s.d ⬝ᵥ A *ᵥ s.d := lt_of_lt_of_le (mul_pos hmu hddp) hlo'
    have hup' : s.d ⬝ᵥ A *ᵥ s.d ≤ L * dot s.d s.d := by
      have := (slope_bounds hG s.x s.d 1 one_pos).2
      have h3 := (quad_line hA b s.x s.d 1).1
      change (A *ᵥ vecadd s.x s.d 1 - b) ⬝ᵥ s.d - (A *ᵥ s.x - b) ⬝ᵥ s.d ≤ _ at this
      rw [h3] at this
      linarith
    set q := s.d ⬝ᵥ A *ᵥ s.d with hq
    set T := - dot s.g s.d / q with hT
    have hTq : T * q = - dot s.g s.d := div_mul_cancel₀ _ ha.ne'
    have hT0 : 0 < T := div_pos (neg_pos.2 hneg) ha
    have hTup : T ≤ far := by
      rw [hfar, hT, div_le_div_iff₀ ha (mul_pos hmu hdp), one_mul]
      calc - dot s.g s.d * (mu * descent mu L a.par.m.toNat)
          = mu * (descent mu L a.par.m.toNat * - dot s.g s.d) := by ring
        _ ≤ mu * dot s.d s.d := mul_le_mul_of_nonneg_left h1 hmu.le
        _ ≤ _ := hlo'
    have hTlo : near ≤ T := by
      rw [hnear, hT, div_le_div_iff₀ (mul_pos hL hU) ha, one_mul]
      calc q ≤ L * dot s.d s.d := hup'
        _ ≤ L * (max 1 (upper mu L a.par.m.toNat) * - dot s.g s.d) := mul_le_mul_of_nonneg_left h2 hL.le
        _ = _ := by ring
    have hrT : r * near ≤ r * T := mul_le_mul_of_nonneg_left hTlo hr0.le
    have hwT : (1 - a.par.wolfe) * T ≤ (1 - a.par.wolfe) * far := mul_le_mul_of_nonneg_left hTup hw1.le
    have hslope : ∀ t, dot (c.env.eval (vecadd s.x s.d t)).2 s.d = dot s.g s.d + t * q := by
      intro t
      rw [heval]
      have := (quad_line hA b s.x s.d t).1
      rw [hgx] at this
      exact this
    refine wolfe_search hsq hG' (p := { a.par with linesearch := j }) hc hm hj he h (lo := (1 - a.par.wolfe) * T)
      (hi := r * T) (by positivity) ?_ ?_ ?_ hM (by rw [heval]; exact hg0) (hmin.trans hrT) hmin1 (hwT.trans hmax)
      hmax1 (hdown.trans (mul_le_mul_of_nonneg_right hrT (by positivity)))
      ((mul_le_mul_of_nonneg_right hwT (by linarith)).trans hupp)
    · rw [← mul_assoc]
      exact mul_le_mul_of_nonneg_right h21 hT0.le
    · intro t ht htr
      have h3 : t * q ≤ r * T * q := mul_le_mul_of_nonneg_right htr ha.le
      have h4 : r * T * q = r * - dot s.g s.d := by rw [mul_assoc, hTq]
      have h5 : r * - dot s.g s.d ≤ 2 * (1 - a.par.ftol) * - dot s.g s.d :=
        mul_le_mul_of_nonneg_right hr1 (neg_pos.2 hneg).le
      have h6 : r * - dot s.g s.d ≤ (1 + a.par.wolfe) * - dot s.g s.d :=
        mul_le_mul_of_nonneg_right hr2 (neg_pos.2 hneg).le
      constructor
      · rw [heval, heval]
        have := (quad_line hA b s.x s.d t).2
        rw [hgx] at this
        show _ + e ≤ _ + e + t * (a.par.ftol * dot s.g s.d)
        rw [this]
        have h7 := mul_le_mul_of_nonneg_left (h3.trans (h4.le.trans h5)) ht.le
        change _ + t * dot s.g s.d + t ^ 2 * q / 2 + e ≤ _
        nlinarith
      · rw [hslope]
        show _ ≤ -a.par.wolfe * _
        linarith
    · intro t ht
      rw [hslope]
      have h3 : (1 - a.par.wolfe) * T * q ≤ t * q := mul_le_mul_of_nonneg_right ht ha.le
      rw [mul_assoc, hTq] at h3
      show a.par.wolfe * _ ≤ _
      linarith
  obtain ⟨h1, h2⟩ := fmin_of_search c hsq hf hpr hG hB' a hls hck hc hm he hpast hit hf0 x0 cb hsearch
  refine ⟨h1, fun res tr h => ?_⟩
  obtain ⟨x, hx, hx1, hx2⟩ := h2 res tr h
  refine ⟨x, hx, hx1, fun z hz => hx2 z fun i => ?_⟩
  show (A *ᵥ z - b) i = 0
  rw [hz, sub_self]; rfl

/-- With 'wolfe' or 'strongwolfe' and otherwise default parameters but 40 trials in a search, from every
    point with a gradient of norm at most a million, the minimiser `(0, 1/2)` of `(y₀² + 2 y₁²) / 2 - y₁` is
    found to within `10⁻⁵ max(1, |x|)`. -/
example (x0 : Fin 2 → ℝ) (hx0 : x0 0 ^ 2 + (2 * x0 1 - 1) ^ 2 ≤ (10 ^ 6) ^ 2) (name : String)
    (hn : name = "wolfe" ∨ name = "strongwolfe") :
    ∃ x tr, Fmin exBowl2
      ⟨⟨10, 1/10^5, 0, 0, 0, 0, 40, 1/10^20, 10^20, 1/10^4, 9/10, 9/10, 1/10^30, 0, 0, -1⟩, name⟩ x0 ()
      (.returned x none) tr ∧
    x 0 ^ 2 + (x 1 - 1/2) ^ 2 ≤ (1/10^5) ^ 2 * max 1 (x 0 ^ 2 + x 1 ^ 2) := by
  have key : ∀ j : Int, (name = "wolfe" ∧ j = 2 ∨ name = "strongwolfe" ∧ j = 3) → _ := fun j hj =>
    C134_quadratic exBowl2 (fun v hv => ⟨Real.sqrt_nonneg v, Real.mul_self_sqrt hv⟩)
    !![1, 0; 0, 2] (by ext i j; fin_cases i <;> fin_cases j <;> rfl) ![0, 1] 0
    (fun _ => rfl) (fun _ _ _ _ _ _ _ _ _ => .inl rfl) 1 2 one_pos two_pos
    (fun v => by simp [mulVec, dotProduct, Fin.sum_univ_two]; nlinarith [sq_nonneg (v 1)])
    (fun v => by simp [mulVec, dotProduct, Fin.sum_univ_two]; nlinarith [sq_nonneg (v 0)])
    ⟨⟨10, 1/10^5, 0, 0, 0, 0, 40, 1/10^20, 10^20, 1/10^4, 9/10, 9/10, 1/10^30, 0, 0, -1⟩, name⟩ j hj
    (fun e he => by
      have hj' : j = 2 ∨ j = 3 := hj.imp (·.2) (·.2)
      rcases hj' with rfl | rfl <;> cases he <;> norm_num at *) rfl (show (1 : Int) ≤ 10 by decide) (by norm_num) rfl rfl (by norm_num)
    _ rfl (by norm_num) x0 () (10 ^ 6) (by norm_num)
    (by simp [dotProduct, Fin.sum_univ_two]; nlinarith [hx0]) _ _ rfl rfl
    (by norm_num [upper, show Int.toNat 10 = 10 from rfl]) (by norm_num)
    (by norm_num [descent, lower, show Int.toNat 10 = 10 from rfl]) (by norm_num)
    (by norm_num [upper, show Int.toNat 10 = 10 from rfl, show Int.toNat 40 = 40 from rfl])
    (by norm_num [descent, lower, show Int.toNat 10 = 10 from rfl, show Int.toNat 40 = 40 from rfl])
  obtain ⟨⟨res, tr, h⟩, h2⟩ := hn.elim (fun h => key 2 (.inl ⟨h, rfl⟩)) (fun h => key 3 (.inr ⟨h, rfl⟩))
  obtain ⟨x, rfl, _, hx⟩ := h2 _ _ h
  refine ⟨x, tr, h, ?_⟩
  have := hx ![0, 1/2] (by ext i; fin_cases i <;> simp [mulVec, dotProduct, Fin.sum_univ_two])
  simp [dotProduct, Fin.sum_univ_two] at this
  simpa [sq] using this

/-- C134, other objectives.  The same holds of every strongly convex, smooth objective, which need not be
    quadratic, if its condition number is small enough: `2.1 (1-wolfe) L ≤ (1-ftol) mu`, that is up to about
    4.7 with the default parameters. -/
theorem C134_smooth_partial [Archimedean K] (c : Callables n σ K) (hsq : IsSqrt c.sqrt) (F : (Fin n → K) → K)
    (G : (Fin n → K) → Fin n → K) (hf : ∀ x, c.f x = (.ok (F x), G x))
    (hpr : ∀ cb x g f xn gn st k ls, (c.progress cb x g f xn gn st k ls).1 = .ok none ∨
      (c.progress cb x g f xn gn st k ls).1 = .ok (some 0))
    (mu L B : K) (hG : StrongSmooth G mu L) (hF : ConvexGrad F G) (hB : ∀ x, B ≤ F x)
    (a : Args K) (j : Int) (hls : a.lineSearch = "wolfe" ∧ j = 2 ∨ a.lineSearch = "strongwolfe" ∧ j = 3)
    (hck : ∀ e, ¬ Violates n { a.par with linesearch := j } e)
    (hc : a.par.c = 0) (hm : 1 ≤ a.par.m) (he : 0 < a.par.epsilon) (hpast : a.par.past = 0)
    (hit : a.par.maxIterations = 0) (hf0 : 0 < a.par.ftol)
    (h21 : 21 / 10 * (1 - a.par.wolfe) * L ≤ (1 - a.par.ftol) * mu)
    (x0 : Fin n → K) (cb : σ) (M : K) (hM : 1 ≤ M) (hg0 : dot (G x0) (G x0) ≤ M ^ 2)
    (near far : K) (hnear : near = 1 / (L * max 1 (upper mu L a.par.m.toNat)))
    (hfar : far = 1 / (mu * descent mu L a.par.m.toNat))
    (hmin : a.par.minStep ≤ (1 - a.par.ftol) * near) (hmin1 : a.par.minStep ≤ 1 / M)
    (hmax : (1 - a.par.wolfe) * far ≤ a.par.maxStep) (hmax1 : max 1 (1 / a.par.epsilon) ≤ a.par.maxStep)
    (hdown : max 1 (1 / a.par.epsilon) ≤ (1 - a.par.ftol) * near * 2 ^ (a.par.maxLinesearch.toNat - 1))
    (hupp : (1 - a.par.wolfe) * far * M ≤ (21 / 10) ^ (a.par.maxLinesearch.toNat - 1)) :
    (∃ res tr, Fmin c a x0 cb res tr) ∧
    ∀ res tr, Fmin c a x0 cb res tr → ∃ x, res = .returned x none ∧
      dot (G x) (G x) ≤ a.par.epsilon ^ 2 * max 1 (dot x x) ∧
      ∀ z, (∀ i, G z i = 0) → mu ^ 2 * dot (fun i => x i - z i) (fun i => x i - z i) ≤
        a.par.epsilon ^ 2 * max 1 (dot x x) := by
  have heval : ∀ y, c.env.eval y = (F y, G y) := by intro y; simp only [Callables.env]; rw [hf]
  have e2 : (fun x => (c.env.eval x).2) = G := by funext x; rw [heval]
  have hG' : StrongSmooth (fun x => (c.env.eval x).2) mu L := by rw [e2]; exact hG
  have hmu := hG.mu_pos
  have hL := hG.L_pos
  have hj : j = 2 ∨ j = 3 := hls.imp (·.2) (·.2)
  have hw : a.par.ftol < a.par.wolfe ∧ a.par.wolfe < 1 := by
    by_contra h
    exact hck _ (.wolfe (p := { a.par with linesearch := j }) hj h)
  have hw1 : 0 < 1 - a.par.wolfe := by linarith [hw.2]
  have hf1 : 0 < 1 - a.par.ftol := by linarith [hw.1]
  refine fmin_of_search c hsq hf hpr hG hB a hls hck hc hm he hpast hit hf0 x0 cb fun s h => ?_
  obtain ⟨hneg, hddp, h1, h2⟩ := direction_ratio hsq hG' (p := { a.par with linesearch := j }) hc hm
    (show j ≠ 0 by rcases hj with h | h <;> rw [h] <;> decide) he h
  obtain ⟨-, hl, _⟩ := reach_loop h
  have hdp := descent_pos hmu hL a.par.m.toNat
  have hU : 0 < max 1 (upper mu L a.par.m.toNat) := lt_of_lt_of_le one_pos (le_max_left _ _)
  have hgx : G s.x = s.g := by rw [hl.inv.g, heval]
  set D := dot s.d s.d with hD
  set ρ := - dot s.g s.d / D with hρ
  have hρD : ρ * D = - dot s.g s.d := div_mul_cancel₀ _ hddp.ne'
  have hρ0 : 0 < ρ := div_pos (neg_pos.2 hneg) hddp
  have hup : ρ / mu ≤ far := by
    rw [hfar, hρ, div_div, div_le_div_iff₀ (mul_pos hddp hmu) (mul_pos hmu hdp), one_mul]
    have := mul_le_mul_of_nonneg_left h1 hmu.le
    change mu * (descent mu L a.par.m.toNat * - dot s.g s.d) ≤ mu * D at this
    linarith
  have hlo : near ≤ ρ / L := by
    rw [hnear, hρ, div_div, div_le_div_iff₀ (mul_pos hL hU) (mul_pos hddp hL), one_mul]
    have := mul_le_mul_of_nonneg_left h2 hL.le
    change L * D ≤ L * (max 1 (upper mu L a.par.m.toNat) * - dot s.g s.d) at this
    linarith
  have hrT : (1 - a.par.ftol) * near ≤ (1 - a.par.ftol) * (ρ / L) := mul_le_mul_of_nonneg_left hlo hf1.le
  have hwT : (1 - a.par.wolfe) * (ρ / mu) ≤ (1 - a.par.wolfe) * far := mul_le_mul_of_nonneg_left hup hw1.le
  have hslope : ∀ t, 0 < t → mu * t * D ≤ dot (G (vecadd s.x s.d t)) s.d - dot s.g s.d ∧
      dot (G (vecadd s.x s.d t)) s.d - dot s.g s.d ≤ L * t * D := by
    intro t ht
    have := slope_bounds hG s.x s.d t ht
    rw [hgx] at this
    exact this
  refine wolfe_search hsq hG' (p := { a.par with linesearch := j }) hc hm hj he h
    (lo := (1 - a.par.wolfe) * (ρ / mu)) (hi := (1 - a.par.ftol) * (ρ / L)) (by positivity) ?_ ?_ ?_ hM
    (by rw [heval]; exact hg0) (hmin.trans hrT) hmin1 (hwT.trans hmax)
    hmax1 (hdown.trans (mul_le_mul_of_nonneg_right hrT (by positivity)))
    ((mul_le_mul_of_nonneg_right hwT (by linarith)).trans hupp)
  · have e1 : 21 / 10 * ((1 - a.par.wolfe) * (ρ / mu)) = 21 / 10 * (1 - a.par.wolfe) * L * (ρ / (mu * L)) := by
      field_simp
    have e3 : (1 - a.par.ftol) * (ρ / L) = (1 - a.par.ftol) * mu * (ρ / (mu * L)) := by field_simp
    rw [e1, e3]
    exact mul_le_mul_of_nonneg_right h21 (by positivity)
  · intro t ht htr
    have h3 : L * t * D ≤ (1 - a.par.ftol) * - dot s.g s.d := by
      have := mul_le_mul_of_nonneg_right htr (mul_nonneg hL.le hddp.le)
      have e1 : (1 - a.par.ftol) * (ρ / L) * (L * D) = (1 - a.par.ftol) * (ρ * D) := by field_simp
      rw [e1, hρD] at this
      linarith
    have h4 := (hslope t ht).2
    have h5 : dot (G (vecadd s.x s.d t)) s.d ≤ a.par.ftol * dot s.g s.d := by linarith
    constructor
    · rw [heval, heval]
      have hc := hF (vecadd s.x s.d t) s.x
      have e1 : dot (G (vecadd s.x s.d t)) (fun i => s.x i - vecadd s.x s.d t i)
          = - (t * dot (G (vecadd s.x s.d t)) s.d) := by
        unfold dot
        rw [mul_sum, ← sum_neg_distrib]
        refine sum_congr rfl fun i _ => ?_
        have : vecadd s.x s.d t i = s.x i + t * s.d i := rfl
        beta_reduce
        rw [this]; ring
      rw [e1] at hc
      have h6 := mul_le_mul_of_nonneg_left h5 ht.le
      show F (vecadd s.x s.d t) ≤ F s.x + t * (a.par.ftol * dot s.g s.d)
      linarith
    · rw [heval]
      have h7 : a.par.ftol * dot s.g s.d ≤ 0 := mul_nonpos_of_nonneg_of_nonpos hf0.le hneg.le
      have h8 : 0 ≤ -a.par.wolfe * dot s.g s.d :=
        mul_nonneg_of_nonpos_of_nonpos (by linarith [hw.1]) hneg.le
      exact h5.trans (h7.trans h8)
  · intro t ht
    have ht0 : 0 < t := lt_of_lt_of_le (by positivity) ht
    rw [heval]
    have h3 := mul_le_mul_of_nonneg_right ht (mul_nonneg hmu.le hddp.le)
    have e1 : (1 - a.par.wolfe) * (ρ / mu) * (mu * D) = (1 - a.par.wolfe) * (ρ * D) := by field_simp
    rw [e1, hρD] at h3
    have h4 := (hslope t ht0).1
    show a.par.wolfe * dot s.g s.d ≤ dot (G (vecadd s.x s.d t)) s.d
    linarith

/-- `y² + max(y, 0)² / 2` over the reals. -/
noncomputable def exKink : Callables 1 Unit ℝ :=
  ⟨Real.sqrt, fun y => (.ok (y 0 ^ 2 + max (y 0) 0 ^ 2 / 2), fun i => 2 * y i + max (y i) 0),
    fun s _ _ _ _ _ _ _ _ => (.ok none, s)⟩

/-- An objective that is not quadratic: with 'wolfe' or 'strongwolfe' and 40 trials in a search, from every
    point with a gradient of at most a million, the minimiser 0 of `y² + max(y, 0)² / 2` is found. -/
example (x0 : Fin 1 → ℝ) (hx0 : (2 * x0 0 + max (x0 0) 0) ^ 2 ≤ (10 ^ 6) ^ 2) (name : String)
    (hn : name = "wolfe" ∨ name = "strongwolfe") :
    ∃ x tr, Fmin exKink
      ⟨⟨10, 1/10^5, 0, 0, 0, 0, 40, 1/10^20, 10^20, 1/10^4, 9/10, 9/10, 1/10^30, 0, 0, -1⟩, name⟩ x0 ()
      (.returned x none) tr ∧ 4 * x 0 ^ 2 ≤ (1/10^5) ^ 2 * max 1 (x 0 ^ 2) := by
  have key : ∀ j : Int, (name = "wolfe" ∧ j = 2 ∨ name = "strongwolfe" ∧ j = 3) → _ := fun j hj =>
    C134_smooth_partial exKink (fun v hv => ⟨Real.sqrt_nonneg v, Real.mul_self_sqrt hv⟩)
    (fun y => y 0 ^ 2 + max (y 0) 0 ^ 2 / 2) (fun y i => 2 * y i + max (y i) 0)
    (fun _ => rfl) (fun _ _ _ _ _ _ _ _ _ => .inl rfl) 2 3 0
    ⟨two_pos, three_pos, fun x y => by
      simp only [dot, Fin.sum_univ_one]
      rcases le_total (x 0) 0 with h1 | h1 <;> rcases le_total (y 0) 0 with h2 | h2 <;>
        simp only [max_eq_left, max_eq_right, h1, h2] <;> nlinarith,
      fun x y => by
      simp only [dot, Fin.sum_univ_one]
      rcases le_total (x 0) 0 with h1 | h1 <;> rcases le_total (y 0) 0 with h2 | h2 <;>
        simp only [max_eq_left, max_eq_right, h1, h2] <;> nlinarith⟩
    (fun x y => by
      simp only [dot, Fin.sum_univ_one]
      rcases le_total (x 0) 0 with h1 | h1 <;> rcases le_total (y 0) 0 with h2 | h2 <;>
        simp only [max_eq_left, max_eq_right, h1, h2] <;> nlinarith [sq_nonneg (x 0 - y 0)])
    (fun x => by positivity)
    ⟨⟨10, 1/10^5, 0, 0, 0, 0, 40, 1/10^20, 10^20, 1/10^4, 9/10, 9/10, 1/10^30, 0, 0, -1⟩, name⟩ j hj
    (fun e he => by
      have hj' : j = 2 ∨ j = 3 := hj.imp (·.2) (·.2)
      rcases hj' with rfl | rfl <;> cases he <;> norm_num at *) rfl (show (1 : Int) ≤ 10 by decide) (by norm_num) rfl
    rfl (by norm_num) (by norm_num) x0 () (10 ^ 6) (by norm_num)
    (by simp only [dot, Fin.sum_univ_one]; nlinarith [hx0]) _ _ rfl rfl
    (by norm_num [upper, show Int.toNat 10 = 10 from rfl]) (by norm_num)
    (by norm_num [descent, lower, show Int.toNat 10 = 10 from rfl]) (by norm_num)
    (by norm_num [upper, show Int.toNat 10 = 10 from rfl, show Int.toNat 40 = 40 from rfl])
    (by norm_num [descent, lower, show Int.toNat 10 = 10 from rfl, show Int.toNat 40 = 40 from rfl])
  obtain ⟨⟨res, tr, h⟩, h2⟩ := hn.elim (fun h => key 2 (.inl ⟨h, rfl⟩)) (fun h => key 3 (.inr ⟨h, rfl⟩))
  obtain ⟨x, rfl, _, hx⟩ := h2 _ _ h
  refine ⟨x, tr, h, ?_⟩
  have := hx (fun _ => 0) (fun i => by simp)
  simp only [dot, Fin.sum_univ_one, sub_zero] at this
  have e : (2:ℝ) ^ 2 = 4 := by norm_num
  rw [e] at this
  simpa only [sq] using this

/-- An objective that falls with a slope of about -1 up to 1.04 and then rises steeply. -/
def steepF (y : Fin 1 → ℚ) : ℚ :=
  if y 0 ≤ 26/25 then - y 0 + y 0 ^ 2 / 2000
  else -26/25 + (26/25) ^ 2 / 2000 + (-1 + 26/25000) * (y 0 - 26/25) + 10^5 * (y 0 - 26/25) ^ 2 / 2

/-- Its derivative. -/
def steepG (y : Fin 1 → ℚ) (i : Fin 1) : ℚ :=
  if y i ≤ 26/25 then -1 + y i / 1000 else -1 + 26/25000 + 10^5 * (y i - 26/25)

/-- The objective with its derivative, for `fmin_lbfgs`. -/
def exSteep : Callables 1 Unit ℚ :=
  ⟨Rat.sqrt, fun y => (.ok (steepF y), steepG y), fun s _ _ _ _ _ _ _ _ => (.ok none, s)⟩

/-- The default parameters (with any line search, and 100 trials in a search instead of 20). -/
def exSteepPar : Par ℚ := ⟨6, 1/10^5, 0, 1/10^5, 0, 0, 100, 1/10^20, 10^20, 1/10^4, 9/10, 9/10, 1/10^16, 0, 0, -1⟩

/-- C134 is false for strongly convex, smooth objectives in general.  With 'wolfe' or 'strongwolfe' the step
    length is halved when it is too long and multiplied by 2.1 when it is too short, without remembering
    which lengths have been too long or too short.  On `exSteep` 100 trials pass between lengths around 0.6
    and around 1.2, and the starting point is returned with a warning, although the objective is strongly
    convex and smooth and its minimum is near 1.04. -/
theorem C134_negation : StrongSmooth steepG (1/1000) (10^5) ∧ ConvexGrad steepF steepG ∧
    ∀ name, name = "wolfe" ∨ name = "strongwolfe" → ∃ tr, Fmin exSteep ⟨exSteepPar, name⟩ (fun _ => 0) ()
      (.returned (fun _ => 0) (some "The line-search routine reaches the maximum number of evaluations.")) tr := by
  refine ⟨⟨by norm_num, by norm_num, fun x y => ?_, fun x y => ?_⟩, fun x y => ?_, fun name hn => ?_⟩
  · simp only [dot, Fin.sum_univ_one, steepG]
    split_ifs <;> nlinarith [mul_self_nonneg (x 0 - y 0)]
  · simp only [dot, Fin.sum_univ_one, steepG]
    split_ifs <;> nlinarith
  · simp only [dot, Fin.sum_univ_one, steepG, steepF]
    split_ifs <;> nlinarith [sq_nonneg (x 0 - y 0)]
  · have key : ∀ j : Int, (name = "wolfe" ∧ j = 2 ∨ name = "strongwolfe" ∧ j = 3) → ∃ tr,
        Fmin exSteep ⟨exSteepPar, name⟩ (fun _ => 0) () (.returned (fun _ => 0)
          (some "The line-search routine reaches the maximum number of evaluations.")) tr := by
      intro j hj
      obtain ⟨o, ho, hr⟩ := lbfgs_of_fuel (fun o => (o.ret, o.x 0)) exSteep.env
        { exSteepPar with linesearch := j } (fun _ => 0) () 1 (-998, 0)
        (by rcases hj with ⟨_, rfl⟩ | ⟨_, rfl⟩ <;> decide +kernel)
        (by rcases hj with ⟨_, rfl⟩ | ⟨_, rfl⟩ <;> decide +kernel)
        (by rcases hj with ⟨_, rfl⟩ | ⟨_, rfl⟩ <;> decide +kernel)
      obtain ⟨hr1, hr2⟩ := Prod.mk.inj hr
      have hx : o.x = fun _ => 0 := by funext i; rw [Subsingleton.elim i 0]; exact hr2
      have hf : finish o = .returned (fun _ => 0)
          (some "The line-search routine reaches the maximum number of evaluations.") := by
        simp only [finish, hr1, hx]; rfl
      refine ⟨_, hf ▸ Fmin.run (p := { exSteepPar with linesearch := j }) ?_ ho⟩
      rcases hj with ⟨h, rfl⟩ | ⟨h, rfl⟩ <;> rw [h] <;> rfl
    exact hn.elim (fun h => key 2 (.inl ⟨h, rfl⟩)) (fun h => key 3 (.inr ⟨h, rfl⟩))

end Verif.Lbfgs
