import Verif.Lemmas.QuadConverge
/-! Helper lemmas for the searches 'wolfe' and 'strongwolfe' (C134). -/
namespace Verif.Lbfgs
open Finset Spec Matrix

variable {n : Nat} {σ K : Type} [Field K] [LinearOrder K] [IsStrictOrderedRing K]

/-- The backtracking search with a curvature condition, if steps up to `hi` have sufficient decrease and
    no steep rise, steps from `lo` on meet the curvature condition and `hi` is at least 2.1 times `lo`: with
    enough trials a step is accepted. -/
theorem btLoop_wolfe (env : Env n σ K) {p : Par K} (hl : p.linesearch = 2 ∨ p.linesearch = 3)
    (xp s : Fin n → K) (finit dginit : K) {lo hi : K} (hlo0 : 0 < lo) (h21 : 21 / 10 * lo ≤ hi)
    (hhigh : ∀ t, 0 < t → t ≤ hi →
      (env.eval (vecadd xp s t)).1 ≤ finit + t * (p.ftol * dginit) ∧
      dot (env.eval (vecadd xp s t)).2 s ≤ -p.wolfe * dginit)
    (hlow : ∀ t, lo ≤ t → p.wolfe * dginit ≤ dot (env.eval (vecadd xp s t)).2 s)
    (hmin : p.minStep ≤ hi) (hmax : lo ≤ p.maxStep) :
    ∀ (rem count : Nat) (stp : K) (tr : List (Fin n → K)), 0 < stp → 0 < rem →
      (p.maxLinesearch = (count + rem : Nat)) → (lo ≤ stp ∨ p.minStep ≤ stp) →
      (stp ≤ hi ∨ stp ≤ p.maxStep) → stp ≤ hi * 2 ^ (rem - 1) → lo ≤ stp * (21 / 10) ^ (rem - 1) →
      0 ≤ (btLoop env p xp s finit dginit rem count stp tr).ret := by
  intro rem
  induction rem with
  | zero => intro count stp tr _ h; exact absurd h (lt_irrefl _)
  | succ rem ih =>
    intro count stp tr hs _ hm hb1 hb2 hb3 hb4
    have hl1 : ¬ p.linesearch = LS_ARMIJO := by
      rcases hl with h | h <;> rw [h] <;> decide
    have hfin : rem = 0 → lo ≤ stp ∧ stp ≤ hi := by
      intro h0
      subst h0
      simp only [Nat.zero_add, Nat.sub_self, pow_zero, mul_one] at hb3 hb4
      exact ⟨hb4, hb3⟩
    -- a trial that is too long
    have long : hi < stp → 0 ≤ (if stp < p.minStep then
          (⟨ERR_MINIMUMSTEP, vecadd xp s stp, (env.eval (vecadd xp s stp)).1, (env.eval (vecadd xp s stp)).2, stp,
            vecadd xp s stp :: tr⟩ : LsOut n K)
        else if p.maxStep < stp then ⟨ERR_MAXIMUMSTEP, vecadd xp s stp, (env.eval (vecadd xp s stp)).1,
            (env.eval (vecadd xp s stp)).2, stp, vecadd xp s stp :: tr⟩
        else if p.maxLinesearch ≤ (count : Int) + 1 then ⟨ERR_MAXIMUMLINESEARCH, vecadd xp s stp,
            (env.eval (vecadd xp s stp)).1, (env.eval (vecadd xp s stp)).2, stp, vecadd xp s stp :: tr⟩
        else btLoop env p xp s finit dginit rem (count + 1) (stp * const 1 2) (vecadd xp s stp :: tr)).ret := by
      intro hT
      rw [if_neg (not_lt.2 (hmin.trans hT.le)),
        if_neg (not_lt.2 (hb2.resolve_left (not_le.2 hT)))]
      have hrem : rem ≠ 0 := fun h0 => absurd hT (not_lt.2 (hfin h0).2)
      rw [if_neg (by rw [hm]; push_cast; omega)]
      have hhalf : stp * const 1 2 = stp / 2 := by simp [const]; ring
      rw [hhalf]
      have h2 : lo ≤ stp / 2 := by linarith
      obtain ⟨j, rfl⟩ : ∃ j, rem = j + 1 := ⟨rem - 1, by omega⟩
      refine ih (count + 1) (stp / 2) _ (by positivity) (by omega) (by rw [hm]; congr 1; omega) (.inl h2) ?_ ?_ ?_
      · rcases hb2 with h | h
        · exact .inl (by linarith)
        · exact .inr (by linarith)
      · simp only [Nat.add_sub_cancel] at hb3 ⊢
        rw [pow_succ] at hb3
        linarith
      · exact h2.trans (le_mul_of_one_le_right (by positivity) (one_le_pow₀ (by norm_num)))
    -- a trial that is too short
    have short : stp < lo → 0 ≤ (if stp < p.minStep then
          (⟨ERR_MINIMUMSTEP, vecadd xp s stp, (env.eval (vecadd xp s stp)).1, (env.eval (vecadd xp s stp)).2, stp,
            vecadd xp s stp :: tr⟩ : LsOut n K)
        else if p.maxStep < stp then ⟨ERR_MAXIMUMSTEP, vecadd xp s stp, (env.eval (vecadd xp s stp)).1,
            (env.eval (vecadd xp s stp)).2, stp, vecadd xp s stp :: tr⟩
        else if p.maxLinesearch ≤ (count : Int) + 1 then ⟨ERR_MAXIMUMLINESEARCH, vecadd xp s stp,
            (env.eval (vecadd xp s stp)).1, (env.eval (vecadd xp s stp)).2, stp, vecadd xp s stp :: tr⟩
        else btLoop env p xp s finit dginit rem (count + 1) (stp * const 21 10) (vecadd xp s stp :: tr)).ret := by
      intro hT
      have hms := hb1.resolve_left (not_le.2 hT)
      rw [if_neg (not_lt.2 hms), if_neg (not_lt.2 (hT.le.trans hmax))]
      have hrem : rem ≠ 0 := fun h0 => absurd hT (not_lt.2 (hfin h0).1)
      rw [if_neg (by rw [hm]; push_cast; omega)]
      have hw : stp * const 21 10 = stp * (21 / 10) := by simp [const]
      rw [hw]
      have h2 : stp * (21 / 10) ≤ hi := by linarith
      obtain ⟨j, rfl⟩ : ∃ j, rem = j + 1 := ⟨rem - 1, by omega⟩
      have hhi : 0 < hi := by linarith
      refine ih (count + 1) (stp * (21 / 10)) _ (by positivity) (by omega) (by rw [hm]; congr 1; omega)
        (.inr (by linarith)) (.inl h2) ?_ ?_
      · exact h2.trans (le_mul_of_one_le_right hhi.le (one_le_pow₀ (by norm_num)))
      · simp only [Nat.add_sub_cancel] at hb4 ⊢
        rw [pow_succ] at hb4
        linarith
    simp only [btLoop, vecdot_eq]
    by_cases h1 : finit + stp * (p.ftol * dginit) < (env.eval (vecadd xp s stp)).1
    · rw [if_pos h1]
      refine long (not_le.1 fun hn => ?_)
      exact absurd (hhigh stp hs hn).1 (not_le.2 h1)
    rw [if_neg h1, if_neg hl1]
    by_cases h2 : dot (env.eval (vecadd xp s stp)).2 s < p.wolfe * dginit
    · rw [if_pos h2]
      exact short (not_le.1 fun hn => absurd (hlow stp hn) (not_le.2 h2))
    rw [if_neg h2]
    by_cases h3 : p.linesearch = LS_WOLFE
    · rw [if_pos h3]
      show (0:Int) ≤ (count : Int) + 1
      omega
    rw [if_neg h3]
    by_cases h4 : -p.wolfe * dginit < dot (env.eval (vecadd xp s stp)).2 s
    · rw [if_pos h4]
      exact long (not_le.1 fun hn => absurd (hhigh stp hs hn).2 (not_le.2 h4))
    rw [if_neg h4]
    show (0:Int) ≤ (count : Int) + 1
    omega

/-- The search of an iteration, from what is known about the objective along the direction. -/
theorem wolfe_search {env : Env n σ K} (hsq : IsSqrt env.sqrt) {mu L : K}
    (hG : StrongSmooth (fun x => (env.eval x).2) mu L) {p : Par K} (hc : p.c = 0) (hm : 1 ≤ p.m)
    (hls : p.linesearch = 2 ∨ p.linesearch = 3) (he : 0 < p.epsilon) {x0 : Fin n → K} {cb : σ}
    {s : St n σ K} (h : Reach env p x0 cb s) {lo hi : K} (hlo0 : 0 < lo) (h21 : 21 / 10 * lo ≤ hi)
    (hhigh : ∀ t, 0 < t → t ≤ hi →
      (env.eval (vecadd s.x s.d t)).1 ≤ (env.eval s.x).1 + t * (p.ftol * dot s.g s.d) ∧
      dot (env.eval (vecadd s.x s.d t)).2 s.d ≤ -p.wolfe * dot s.g s.d)
    (hlow : ∀ t, lo ≤ t → p.wolfe * dot s.g s.d ≤ dot (env.eval (vecadd s.x s.d t)).2 s.d)
    {M : K} (hM : 1 ≤ M) (hg0 : dot (env.eval x0).2 (env.eval x0).2 ≤ M ^ 2)
    (hmin : p.minStep ≤ hi) (hmin1 : p.minStep ≤ 1 / M) (hmax : lo ≤ p.maxStep)
    (hmax1 : max 1 (1 / p.epsilon) ≤ p.maxStep)
    (hdown : max 1 (1 / p.epsilon) ≤ hi * 2 ^ (p.maxLinesearch.toNat - 1))
    (hupp : lo * M ≤ (21 / 10) ^ (p.maxLinesearch.toNat - 1)) :
    0 ≤ (lineSearch env (fillEnd n p) s).ret := by
  obtain ⟨hck, hl, _⟩ := reach_loop h
  have ok := ok_of_check hck
  have hc' : (fillEnd n p).c = 0 := by rw [fillEnd_eq]; exact hc
  have hls' : (fillEnd n p).linesearch = 2 ∨ (fillEnd n p).linesearch = 3 := by rw [fillEnd_eq]; exact hls
  obtain ⟨hd, -⟩ := direction_bounds hsq hG hc hm (by intro h0; rw [h0] at hls; omega) h
  have hdp := descent_pos hG.mu_pos hG.L_pos p.m.toNat
  have hst := reach_step hsq.zero (fun _ => hsq.pos) h
  obtain ⟨hst1, _⟩ := reach_step_le hsq hc he h
  have hst2 := reach_step_ge hsq hc he h hM hg0
  have hm1 : 0 < (fillEnd n p).maxLinesearch.toNat := by have := ok.maxLs; omega
  have hm' : (fillEnd n p).maxLinesearch = ((0 + (fillEnd n p).maxLinesearch.toNat : Nat) : Int) := by
    have := ok.maxLs; omega
  have hdneg : dot s.g s.d ≤ 0 := by
    have := mul_nonneg hdp.le (dot_nonneg s.g)
    linarith
  have e : s.fx = (env.eval s.x).1 := by
    rw [hl.inv.f]
    unfold obj penalised
    rw [hc', zero_mul, add_zero]
  have hM0 : 0 < M := lt_of_lt_of_le one_pos hM
  have hmls : (fillEnd n p).maxLinesearch = p.maxLinesearch := by rw [fillEnd_eq]
  unfold lineSearch
  rw [if_pos (feq_iff.2 hc'), if_neg (by rcases hls' with h | h <;> rw [h] <;> decide)]
  simp only [backtracking, vecdot_eq]
  rw [if_neg (not_le.2 hst), if_neg (not_lt.2 hdneg), e]
  refine btLoop_wolfe env hls' s.x s.d _ _ hlo0 h21 ?_ ?_ ?_ ?_ _ 0 s.step [] hst hm1 hm' ?_ ?_ ?_ ?_
  · rw [fillEnd_eq]; exact hhigh
  · rw [fillEnd_eq]; exact hlow
  · rw [fillEnd_eq]; exact hmin
  · rw [fillEnd_eq]; exact hmax
  · rw [fillEnd_eq]; exact .inr (hmin1.trans hst2)
  · rw [fillEnd_eq]; exact .inr (hst1.trans hmax1)
  · rw [hmls]; exact hst1.trans hdown
  · rw [hmls]
    refine le_trans ?_ (mul_le_mul_of_nonneg_right hst2 (by positivity))
    rw [one_div_mul_eq_div, le_div_iff₀ hM0]
    exact hupp

/-- What is known about the slope and the length of the direction of an iteration. -/
theorem direction_ratio {env : Env n σ K} (hsq : IsSqrt env.sqrt) {mu L : K}
    (hG : StrongSmooth (fun x => (env.eval x).2) mu L) {p : Par K} (hc : p.c = 0) (hm : 1 ≤ p.m)
    (hls : p.linesearch ≠ 0) (he : 0 < p.epsilon) {x0 : Fin n → K} {cb : σ}
    {s : St n σ K} (h : Reach env p x0 cb s) :
    dot s.g s.d < 0 ∧ 0 < dot s.d s.d ∧ descent mu L p.m.toNat * - dot s.g s.d ≤ dot s.d s.d ∧
      dot s.d s.d ≤ max 1 (upper mu L p.m.toNat) * - dot s.g s.d := by
  obtain ⟨hd, hdd⟩ := direction_bounds hsq hG hc hm (fun h => absurd h hls) h
  have hgg := reach_gradient hsq hc he h
  have hdp := descent_pos hG.mu_pos hG.L_pos p.m.toNat
  have hgg0 : 0 < dot s.g s.g := lt_of_le_of_lt (sq_nonneg _) hgg
  have hneg : dot s.g s.d < 0 := lt_of_le_of_lt hd (neg_lt_zero.2 (mul_pos hdp hgg0))
  have hddp : 0 < dot s.d s.d := by
    refine dot_self_pos fun h0 => ?_
    rw [h0] at hneg
    simp [dot] at hneg
  refine ⟨hneg, hddp, ?_, hdd⟩
  have h2 := cauchy s.g s.d
  have h3 := mul_le_mul_of_nonneg_right (show descent mu L p.m.toNat * dot s.g s.g ≤ - dot s.g s.d by linarith)
    hddp.le
  have h4 := mul_le_mul_of_nonneg_left h2 hdp.le
  refine le_of_mul_le_mul_right ?_ (neg_pos.2 hneg)
  nlinarith

/-- The slope of a strongly convex, smooth objective along a direction. -/
theorem slope_bounds {G : (Fin n → K) → Fin n → K} {mu L : K} (hG : StrongSmooth G mu L) (x d : Fin n → K)
    (t : K) (ht : 0 < t) :
    mu * t * dot d d ≤ dot (G (vecadd x d t)) d - dot (G x) d ∧
      dot (G (vecadd x d t)) d - dot (G x) d ≤ L * t * dot d d := by
  set y := vecadd x d t with hy
  have hyi : ∀ i, y i = x i + t * d i := fun i => rfl
  have e2 : dot (fun i => G y i - G x i) d = dot (G y) d - dot (G x) d := by
    unfold dot
    rw [← sum_sub_distrib]
    exact sum_congr rfl fun i _ => by ring
  have hsub : (fun i => y i - x i) = fun i => t * d i := by funext i; rw [hyi]; ring
  have e3 : dot (fun i => t * d i) (fun i => t * d i) = t ^ 2 * dot d d := by
    unfold dot
    rw [mul_sum]
    exact sum_congr rfl fun i _ => by ring
  have e4 : dot (fun i => G y i - G x i) (fun i => t * d i) = t * dot (fun i => G y i - G x i) d := by
    unfold dot
    rw [mul_sum]
    exact sum_congr rfl fun i _ => by ring
  constructor
  · have := hG.mono y x
    rw [hsub, e3, e4, e2] at this
    refine le_of_mul_le_mul_left ?_ ht
    linarith
  · have hlip := hG.lip y x
    rw [hsub, e3] at hlip
    rw [← e2]
    apply le_of_sq_le_sq _ (mul_nonneg (mul_nonneg hG.L_pos.le ht.le) (dot_nonneg _))
    refine (cauchy _ _).trans ((mul_le_mul_of_nonneg_right hlip (dot_nonneg _)).trans (le_of_eq ?_))
    ring

end Verif.Lbfgs
