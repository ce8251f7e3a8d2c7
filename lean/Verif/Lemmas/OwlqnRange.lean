import Verif.Lemmas.OwlqnConverge
/-! Helper lemmas for the convergence of the minimiser with an L1 penalty on some of the variables. -/
namespace Verif.Lbfgs
open Finset Spec

variable {n : Nat} {σ K : Type} [Field K] [LinearOrder K] [IsStrictOrderedRing K]

/-- What an accepted step does, with any range of penalised variables. -/
theorem range_step {F : (Fin n → K) → K} {G : (Fin n → K) → Fin n → K} {mu L : K} (hG : StrongSmooth G mu L)
    (hF : ConvexGrad F G) {c a ftol eps : K} (hc : 0 ≤ c) (ha : 0 < a) {start stop : Int}
    (hf0 : 0 < ftol) (hf1 : ftol < 1) (he : 0 < eps) (m N : Nat) (haN : 1 / 2 ^ N ≤ a)
    (x d pg : Fin n → K) (hpg : pg = pseudoGradient x (G x) c start stop)
    (hd : ∀ i : Fin n, Penalised start stop i → d i = 0 ∨ d i * pg i < 0)
    (hlo : dot pg d ≤ -(descent mu L m * dot pg pg)) (hup : dot d d ≤ stretch mu L m ^ 2 * dot pg pg)
    (hgg : eps ^ 2 < dot pg pg) (y : Fin n → K)
    (hyp : ∀ i : Fin n, Penalised start stop i → y i = move (x i) (d i) (pg i) a)
    (hyf : ∀ i : Fin n, ¬ Penalised start stop i → y i = x i + a * d i)
    (hacc : penalised F c start stop y ≤ penalised F c start stop x + ftol * dot (fun i => y i - x i) pg) :
    OwlStep (fun i => Penalised start stop i) (penalised F c start stop) G c (ftol * mu / 4)
      (rangeGain ftol eps mu L m N) (owlSlope eps mu L m n / 2) x y := by
  set l := descent mu L m with hl
  set U := stretch mu L m with hU
  have hl0 : 0 < l := descent_pos hG.mu_pos hG.L_pos m
  have hU0 : 0 < U := lt_of_lt_of_le one_pos (le_max_left _ _)
  have hmu0 := hG.mu_pos
  set P := dot pg pg with hP
  have hP0 : 0 < P := lt_of_le_of_lt (sq_nonneg _) hgg
  have hn : 0 < n := by
    rcases Nat.eq_zero_or_pos n with rfl | h
    · rw [hP] at hP0; simp [dot] at hP0
    · exact h
  have hnK : (0 : K) < n := Nat.cast_pos.2 hn
  refine ⟨?_, ?_, fun i hpen hi => ?_, fun i hpen hi => ?_⟩
  · have h1 := penalised_below hG hF hc start stop x y
    rw [← hpg] at h1
    have h2 := mul_nonneg (show 0 ≤ mu / 4 by positivity) (dot_nonneg (fun i => y i - x i))
    have h3 : mu / 4 * dot (fun i => y i - x i) (fun i => y i - x i) ≤
        (1 - ftol) * -dot (fun i => y i - x i) pg := by linarith
    have h4 : 0 ≤ -dot (fun i => y i - x i) pg := by nlinarith
    have h5 : mu / 4 * dot (fun i => y i - x i) (fun i => y i - x i) ≤ -dot (fun i => y i - x i) pg := by nlinarith
    have h6 := mul_le_mul_of_nonneg_left h5 hf0.le
    calc _ = ftol * (mu / 4 * dot (fun i => y i - x i) (fun i => y i - x i)) := by ring
      _ ≤ _ := by linarith
  · by_cases hT : ∃ i : Fin n, Penalised start stop i ∧ y i = 0 ∧ x i ≠ 0 ∧ 0 < x i * pg i ∧
        l * P / (2 * n) ≤ -(d i * pg i)
    · right
      obtain ⟨i, hpen, hm, hx, hxp, hi⟩ := hT
      have hs : owlSlope eps mu L m n / 2 ≤ |pg i| := by
        unfold owlSlope
        rw [← hl, ← hU]
        apply le_of_sq_le_sq _ (abs_nonneg _)
        rw [sq_abs, div_div, div_pow, div_le_iff₀ (by positivity)]
        have h1 : (l * P / (2 * n)) ^ 2 ≤ pg i ^ 2 * (U ^ 2 * P) := by
          have g1 := pow_le_pow_left₀ (show 0 ≤ l * P / (2 * n) by positivity) hi 2
          have g2 : d i ^ 2 ≤ dot d d := by
            rw [sq]
            exact single_le_sum (f := fun j => d j * d j) (fun j _ => mul_self_nonneg _) (mem_univ i)
          have g3 := mul_le_mul_of_nonneg_left (g2.trans hup) (sq_nonneg (pg i))
          calc _ ≤ _ := g1
            _ = pg i ^ 2 * d i ^ 2 := by ring
            _ ≤ _ := g3
        have h2 : (l * P / (2 * n)) ^ 2 = (l ^ 2 * P / (2 * n) ^ 2) * P := by ring
        have h3 : pg i ^ 2 * (U ^ 2 * P) = (pg i ^ 2 * U ^ 2) * P := by ring
        rw [h2, h3] at h1
        have h4 := le_of_mul_le_mul_right h1 hP0
        rw [div_le_iff₀ (by positivity)] at h4
        have h5 := mul_le_mul_of_nonneg_left hgg.le (sq_nonneg l)
        calc _ = l ^ 2 * eps ^ 2 := by ring
          _ ≤ _ := h5
          _ ≤ _ := h4
          _ = _ := by ring
      refine ⟨i, hpen, hm, ?_⟩
      obtain ⟨p1, p2, _⟩ := pseudo_cases (x := x) (g := G x) (c := c) hpen
      rw [← hpg] at p1 p2
      rcases lt_or_gt_of_ne hx with hx' | hx'
      · right
        have : pg i < 0 := by nlinarith
        rw [abs_of_neg this, p2 hx'] at hs
        exact ⟨hx', by linarith⟩
      · left
        have : 0 < pg i := (mul_pos_iff_of_pos_left hx').1 hxp
        rw [abs_of_pos this, p1 hx'] at hs
        exact ⟨hx', hs⟩
    · left
      have hw : 0 ≤ l * P / (2 * n) := by positivity
      have key : ∀ j, a * -(d j * pg j) ≤ -((y j - x j) * pg j) + a * (l * P / (2 * n)) := by
        intro j
        have hw' := mul_nonneg ha.le hw
        by_cases hj : Penalised start stop j
        · rcases move_cases (x := x j) ha (hd j hj) with hm | ⟨hm, hx, _, hxp, _⟩
          · rw [hyp j hj, hm, add_sub_cancel_left]
            linarith
          · have hlt : -(d j * pg j) < l * P / (2 * n) := by
              by_contra hge
              exact hT ⟨j, hj, by rw [hyp j hj, hm], hx, hxp, not_lt.1 hge⟩
            have h1 := mul_le_mul_of_nonneg_left hlt.le ha.le
            have h2 := move_slope (x := x j) ha (hd j hj)
            rw [← hyp j hj] at h2
            linarith
        · rw [hyf j hj, add_sub_cancel_left]
          linarith
      have hsum := sum_le_sum fun j (_ : j ∈ (univ : Finset (Fin n))) => key j
      rw [sum_add_distrib, sum_const, card_univ, Fintype.card_fin, nsmul_eq_mul, ← mul_sum, sum_neg_distrib,
        sum_neg_distrib] at hsum
      have e1 : dot pg d = ∑ i, d i * pg i := by rw [dot_comm]; rfl
      have e2 : (n : K) * (a * (l * P / (2 * n))) = a * (l * P) / 2 := by field_simp
      rw [e1] at hlo
      rw [e2] at hsum
      have h1 := mul_le_mul_of_nonneg_left hlo ha.le
      have h2 : a * (l * P) / 2 ≤ -dot (fun i => y i - x i) pg := by
        have : dot (fun i => y i - x i) pg = ∑ i, (y i - x i) * pg i := rfl
        rw [this]
        linarith
      have h3 : 1 / 2 ^ N * (l * eps ^ 2 / 2) ≤ a * (l * P / 2) := by
        refine mul_le_mul haN ?_ (by positivity) ha.le
        gcongr
      have h4 := mul_le_mul_of_nonneg_left (h3.trans (by linarith : a * (l * P / 2) ≤ -dot (fun i => y i - x i) pg)) hf0.le
      unfold rangeGain
      rw [← hl]
      calc _ = ftol * (1 / 2 ^ N * (l * eps ^ 2 / 2)) := by ring
        _ ≤ _ := h4
        _ ≤ _ := by linarith
  · rw [hyp i hpen] at hi
    rcases (move_sign ha (hd i hpen)).1 hi with h | ⟨h1, h2⟩
    · exact .inl h
    · obtain ⟨_, _, p3⟩ := pseudo_cases (x := x) (g := G x) (c := c) hpen
      rw [← hpg] at p3
      rcases p3 h1 with ⟨h3, h4⟩ | ⟨h3, h4⟩ | h3
      · exact .inr ⟨h1, h4.le⟩
      · rw [h3] at h2; exact absurd h2 h4.not_gt
      · rw [h3] at h2; exact absurd h2 (lt_irrefl _)
  · rw [hyp i hpen] at hi
    rcases (move_sign ha (hd i hpen)).2 hi with h | ⟨h1, h2⟩
    · exact .inl h
    · obtain ⟨_, _, p3⟩ := pseudo_cases (x := x) (g := G x) (c := c) hpen
      rw [← hpg] at p3
      rcases p3 h1 with ⟨h3, h4⟩ | ⟨h3, h4⟩ | h3
      · rw [h3] at h2; exact absurd h2 h4.not_gt
      · exact .inr ⟨h1, h4.le⟩
      · rw [h3] at h2; exact absurd h2 (lt_irrefl _)

/-- The number of trials bounds the step length from below. -/
theorem owlqnLoop_length (env : Env n σ K) (p : Par K) (xp pg wp s : Fin n → K) (finit : K) :
    ∀ (rem count : Nat) (stp : K) (tr : List (Fin n → K)), 0 < stp →
      stp / 2 ^ rem ≤ (owlqnLoop env p xp pg wp s finit rem count stp tr).step := by
  intro rem
  induction rem with
  | zero => intro count stp tr _; simp [owlqnLoop]
  | succ rem ih =>
    intro count stp tr hs
    have h0 : stp / 2 ^ (rem + 1) ≤ stp := div_le_self hs.le (one_le_pow₀ one_le_two)
    simp only [owlqnLoop]
    split_ifs with h1 h2 h3 h4
    · exact h0
    · exact h0
    · exact h0
    · exact h0
    · have hhalf : stp * const 1 2 = stp / 2 := by simp [const]; ring
      have := ih (count + 1) (stp * const 1 2) (project (vecadd xp s stp) wp p.start p.stop :: tr)
        (by rw [hhalf]; linarith)
      rw [hhalf] at this ⊢
      rwa [pow_succ', ← div_div]

/-- Every iteration after the first. -/
theorem range_iteration {env : Env n σ K} (hsq : IsSqrt env.sqrt) {mu L : K}
    (hG : StrongSmooth (fun x => (env.eval x).2) mu L)
    (hF : ConvexGrad (fun x => (env.eval x).1) (fun x => (env.eval x).2)) {p : Par K} (hc : p.c ≠ 0) (hm : 1 ≤ p.m)
    (hf0 : 0 < p.ftol) (hf1 : p.ftol < 1)
    (he : 0 < p.epsilon) {x0 : Fin n → K} {cb : σ} {s : St n σ K} (h : Reach env p x0 cb s)
    (h1 : s.reports ≠ []) (h0 : 0 ≤ (lineSearch env (fillEnd n p) s).ret) :
    OwlStep (fun i => Penalised p.start (fillEnd n p).stop i) (obj env (fillEnd n p)) (fun x => (env.eval x).2) p.c
      (p.ftol * mu / 4) (rangeGain p.ftol p.epsilon mu L p.m.toNat p.maxLinesearch.toNat)
      (owlSlope p.epsilon mu L p.m.toNat n / 2) s.x (lineSearch env (fillEnd n p) s).x := by
  obtain ⟨hck, hl, _⟩ := reach_loop h
  have ok := ok_of_check hck
  have hc' : (fillEnd n p).c ≠ 0 := by rw [fillEnd_eq]; exact hc
  have hst : (fillEnd n p).start = p.start := by rw [fillEnd_eq]
  have hcc : (fillEnd n p).c = p.c := by rw [fillEnd_eq]
  have hft : (fillEnd n p).ftol = p.ftol := by rw [fillEnd_eq]
  have hls : (fillEnd n p).maxLinesearch = p.maxLinesearch := by rw [fillEnd_eq]
  have hg := lineSearch_good ok s h0
  obtain ⟨ha, hx, hf⟩ := hg.owl hc'
  obtain ⟨hd, hdd⟩ := owl_direction hsq hG hc hm h
  have hgg := owl_slope hsq hc he h
  have hlen : 1 / 2 ^ p.maxLinesearch.toNat ≤ (lineSearch env (fillEnd n p) s).step := by
    have hs1 := (owl_step_le hsq hc he h).2 h1
    have := owlqnLoop_length env (fillEnd n p) s.x s.pg (fun i => if feq (s.x i) 0 then -s.pg i else s.x i) s.d
      s.fx (fillEnd n p).maxLinesearch.toNat 0 s.step [] (by rw [hs1]; exact one_pos)
    have e : lineSearch env (fillEnd n p) s = owlqnLoop env (fillEnd n p) s.x s.pg
        (fun i => if feq (s.x i) 0 then -s.pg i else s.x i) s.d s.fx (fillEnd n p).maxLinesearch.toNat 0 s.step [] := by
      unfold lineSearch backtrackingOwlqn
      rw [if_neg (fun h => hc' (feq_iff.1 h)), if_neg (by rw [hs1]; exact not_le.2 one_pos)]
    rw [← e, hs1, hls] at this
    exact this
  rw [hg.f, hl.inv.f] at hf
  have hpg := hl.inv.pg hc'
  rw [hl.inv.g, hcc, hst] at hpg
  have key := range_step (F := fun x => (env.eval x).1) (G := fun x => (env.eval x).2) hG hF (c := p.c)
    (by have := ok.c; rwa [hcc] at this) ha hf0 hf1 he p.m.toNat p.maxLinesearch.toNat hlen s.x s.d s.pg hpg
    (fun i hi => hl.inv.d hc' i (by rw [hst]; exact hi)) hd hdd hgg (lineSearch env (fillEnd n p) s).x
    (fun i hi => by
      rw [hx]
      unfold project
      rw [if_pos (show _ ∧ _ from (by rw [hst]; exact hi))]
      rfl)
    (fun i hi => by
      rw [hx]
      unfold project
      rw [if_neg (show ¬ (_ ∧ _) from (by rw [hst]; exact hi))]
      rfl)
  unfold obj at hf ⊢
  rw [hcc, hst] at hf ⊢
  rw [hft] at hf
  exact key hf

theorem range_mono {env : Env n σ K} {p : Par K}
    (hF : ConvexGrad (fun x => (env.eval x).1) (fun x => (env.eval x).2)) (hf1 : p.ftol < 1)
    {x0 : Fin n → K} {cb : σ} {s : St n σ K}
    (h : Reach env p x0 cb s) (h0 : 0 ≤ (lineSearch env (fillEnd n p) s).ret) :
    obj env (fillEnd n p) (lineSearch env (fillEnd n p) s).x ≤ obj env (fillEnd n p) s.x := by
  obtain ⟨hck, hl, _⟩ := reach_loop h
  have ok := ok_of_check hck
  have hg := lineSearch_good ok s h0
  have := step_decreases ok (.inr (.inr ⟨hF, by rw [fillEnd_eq]; exact hf1⟩)) hl.inv hg
  rwa [hg.f, hl.inv.f] at this

theorem rangeGain_pos {ftol eps mu L : K} (hf0 : 0 < ftol) (he : 0 < eps) (hmu : 0 < mu) (hL : 0 < L)
    (m N : Nat) : 0 < rangeGain ftol eps mu L m N := by
  have h1 := descent_pos hmu hL m
  unfold rangeGain
  positivity

theorem rangeDecrease_pos {ftol eps mu L : K} (hf0 : 0 < ftol) (he : 0 < eps) (hmu : 0 < mu) (hL : 0 < L)
    (m N : Nat) (hn : 0 < n) : 0 < rangeDecrease ftol eps mu L m n N := by
  have h1 := rangeGain_pos hf0 he hmu hL m N
  have h2 := owlSlope_pos he hmu hL m hn
  unfold rangeDecrease
  exact lt_min h1 (by positivity)

end Verif.Lbfgs
