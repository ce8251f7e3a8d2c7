import Verif.Lemmas.LbfgsPy
import Verif.Props.Owlqn
/-! Helper lemmas for the main loop of the minimiser. -/
namespace Verif.Lbfgs
open Finset Spec

variable {n : Nat} {σ K : Type} [Field K] [LinearOrder K] [IsStrictOrderedRing K]

/-- The progress report after an accepted line search. -/
def rep (env : Env n σ K) (p : Par K) (s : St n σ K) (r : LsOut n K) : Report n K :=
  ⟨r.x, r.g, r.f, vec2norm env.sqrt r.x, vec2norm env.sqrt (effGrad p r.g (newPg p s r)), r.step, s.k, r.ret⟩

/-- The objective. -/
def obj (env : Env n σ K) (p : Par K) (x : Fin n → K) : K :=
  penalised (fun x => (env.eval x).1) p.c p.start p.stop x

theorem iterate_inl {env : Env n σ K} {p : Par K} {s s' : St n σ K} (h : iterate env p s = .inl s') :
    0 ≤ (lineSearch env p s).ret ∧
    ¬ converged p (vec2norm env.sqrt (lineSearch env p s).x)
      (vec2norm env.sqrt (effGrad p (lineSearch env p s).g (newPg p s (lineSearch env p s)))) ∧
    ¬ (p.maxIterations ≠ 0 ∧ p.maxIterations < (s.k : Int) + 1) ∧
    ∃ pf cb, s' = update p s (lineSearch env p s) (newPg p s (lineSearch env p s)) pf cb
      (rep env p s (lineSearch env p s) :: s.reports) := by
  unfold iterate at h
  dsimp only at h
  by_cases h1 : (lineSearch env p s).ret < 0
  · rw [if_pos h1] at h; cases h
  rw [if_neg h1] at h
  split_ifs at h with h2 h3 h4 h5
  cases h
  exact ⟨not_lt.1 h1, h3, h5, _, _, rfl⟩

theorem iterate_inr {env : Env n σ K} {p : Par K} {s : St n σ K} {o : Out n K}
    (h : iterate env p s = .inr o) :
    ((lineSearch env p s).ret < 0 ∧
      o = ⟨(lineSearch env p s).ret, s.x, (lineSearch env p s).trials ++ s.trials, s.reports⟩) ∨
    (0 ≤ (lineSearch env p s).ret ∧ o.x = (lineSearch env p s).x ∧
      o.trials = (lineSearch env p s).trials ++ s.trials ∧
      o.reports = rep env p s (lineSearch env p s) :: s.reports ∧
      ((o.ret ≠ 0 ∧ ∃ cb x g a b c d k l, o.ret = (env.progress cb x g a b c d k l).1) ∨
       (o.ret = SUCCESS ∧ converged p (vec2norm env.sqrt (lineSearch env p s).x)
        (vec2norm env.sqrt (effGrad p (lineSearch env p s).g (newPg p s (lineSearch env p s))))) ∨
       o.ret = STOP ∨ (o.ret = ERR_MAXIMUMITERATION ∧ p.maxIterations ≠ 0 ∧
         p.maxIterations < (s.k : Int) + 1))) := by
  unfold iterate at h
  dsimp only at h
  by_cases h1 : (lineSearch env p s).ret < 0
  · rw [if_pos h1] at h
    cases h
    exact .inl ⟨h1, rfl⟩
  rw [if_neg h1] at h
  right
  split_ifs at h with h2 h3 h4 h5
  · cases h
    exact ⟨not_lt.1 h1, rfl, rfl, rfl, .inl ⟨h2, _, _, _, _, _, _, _, _, _, rfl⟩⟩
  · cases h
    exact ⟨not_lt.1 h1, rfl, rfl, rfl, .inr (.inl ⟨rfl, h3⟩)⟩
  · cases h
    exact ⟨not_lt.1 h1, rfl, rfl, rfl, .inr (.inr (.inl rfl))⟩
  · cases h
    exact ⟨not_lt.1 h1, rfl, rfl, rfl, .inr (.inr (.inr ⟨rfl, h5⟩))⟩

/-- The parameters passed the checks and `orthantwise_end` is filled in. -/
structure Ok (n : Nat) (p : Par K) : Prop where
  eps : 0 ≤ p.epsilon
  minStep : 0 ≤ p.minStep
  maxStep : p.minStep ≤ p.maxStep
  ftol : 0 ≤ p.ftol
  gtol : 0 ≤ p.gtol
  maxLs : 0 < p.maxLinesearch
  c : 0 ≤ p.c
  wolfe : p.linesearch = LS_WOLFE ∨ p.linesearch = LS_STRONG → p.ftol < p.wolfe ∧ p.wolfe < 1
  search : p.c = 0 → p.linesearch = LS_MORETHUENTE ∨ p.linesearch = LS_ARMIJO ∨ p.linesearch = LS_WOLFE ∨
        p.linesearch = LS_STRONG

theorem ok_of_check {p : Par K} (h : check n p = none) : Ok n (fillEnd n p) := by
  obtain ⟨h1, h2, h3, h4, h5, h6, h7, h8, h9, h10, h11, h12, h13, h14⟩ := check_facts h
  rw [fillEnd_eq]
  exact ⟨h1, h2, h3, h4, h5, h6, h7, h11, h13⟩

/-- What an accepted line search guarantees. -/
structure LsGood (env : Env n σ K) (p : Par K) (s : St n σ K) (r : LsOut n K) : Prop where
  ret : r.ret = r.trials.length
  last : r.trials.head? = some r.x
  f : r.f = obj env p r.x
  g : r.g = (env.eval r.x).2
  step : 0 ≤ r.step
  plain : p.c = 0 → dot s.g s.d ≤ 0 ∧ (∀ i, r.x i = s.x i + r.step * s.d i) ∧
    r.f ≤ s.fx + r.step * (p.ftol * dot s.g s.d)
  wolfe : p.c = 0 → p.linesearch = LS_WOLFE ∨ p.linesearch = LS_STRONG →
    0 < r.step ∧ p.wolfe * dot s.g s.d ≤ dot r.g s.d
  mt : p.c = 0 → p.linesearch = LS_MORETHUENTE → |dot r.g s.d| ≤ p.gtol * (-dot s.g s.d)
  owl : p.c ≠ 0 → 0 < r.step ∧
    r.x = project (vecadd s.x s.d r.step) (fun i => if feq (s.x i) 0 then -s.pg i else s.x i) p.start p.stop ∧
    r.f ≤ s.fx + p.ftol * dot (fun i => r.x i - s.x i) s.pg

theorem lineSearch_good {env : Env n σ K} {p : Par K} (ok : Ok n p) (s : St n σ K)
    (h : 0 ≤ (lineSearch env p s).ret) : LsGood env p s (lineSearch env p s) := by
  have hm : 0 < p.maxLinesearch.toNat := by have := ok.maxLs; omega
  have hm' : p.maxLinesearch = ((0 + p.maxLinesearch.toNat : Nat) : Int) := by have := ok.maxLs; omega
  unfold lineSearch at h ⊢
  by_cases hc : feq p.c 0
  · rw [if_pos hc] at h ⊢
    rw [feq_iff] at hc
    by_cases hl : p.linesearch = LS_MORETHUENTE
    · rw [if_pos hl] at h ⊢
      simp only [moreThuente, vecdot_eq] at h ⊢
      by_cases h0 : s.step ≤ 0
      · rw [if_pos h0] at h; exact absurd h (by show ¬ (0:Int) ≤ ERR_INVALIDPARAMETERS; decide)
      rw [if_neg h0] at h ⊢
      by_cases h1 : 0 < dot s.g s.d
      · rw [if_pos h1] at h; exact absurd h (by show ¬ (0:Int) ≤ ERR_INCREASEGRADIENT; decide)
      rw [if_neg h1] at h ⊢
      obtain ⟨_, _, hh, hx, he, hok, _⟩ := mtLoop_spec env p s.x s.d s.fx (dot s.g s.d) ok.minStep ok.maxStep
        p.maxLinesearch.toNat 0 ⟨0, s.fx, dot s.g s.d, 0, s.fx, dot s.g s.d, s.step, false⟩ true
        (p.maxStep - p.minStep) (const 2 1 * (p.maxStep - p.minStep)) 0 [] (le_refl _) hm hm'
      obtain ⟨hr, _, hg⟩ := hok h
      refine ⟨by simpa using hr, hh, ?_, ?_, hg.nonneg, fun _ => ⟨not_lt.1 h1, hx, hg.armijo⟩, fun _ hw => ?_, fun _ _ => hg.strong,
        fun h => absurd hc h⟩
      · simp only [obj, penalised]; rw [he, hc]; simp
      · rw [he]
      · rw [hl] at hw; exact absurd hw (by decide)
    · rw [if_neg hl] at h ⊢
      simp only [backtracking, vecdot_eq] at h ⊢
      by_cases h0 : s.step ≤ 0
      · rw [if_pos h0] at h; exact absurd h (by show ¬ (0:Int) ≤ ERR_INVALIDPARAMETERS; decide)
      rw [if_neg h0] at h ⊢
      by_cases h1 : 0 < dot s.g s.d
      · rw [if_pos h1] at h; exact absurd h (by show ¬ (0:Int) ≤ ERR_INCREASEGRADIENT; decide)
      rw [if_neg h1] at h ⊢
      obtain ⟨_, _, hh, hok, _⟩ := btLoop_spec env p s.x s.d s.fx (dot s.g s.d)
        p.maxLinesearch.toNat 0 s.step [] (not_le.1 h0) hm hm'
      obtain ⟨hr, hg⟩ := hok h
      refine ⟨by simpa using hr, hh, ?_, ?_, hg.pos.le, fun _ => ⟨not_lt.1 h1, hg.pt, hg.armijo⟩,
        fun _ hw => ⟨hg.pos, hg.wolfe (by rcases hw with h | h <;> rw [h] <;> decide)⟩,
        fun _ h => absurd h hl, fun h => absurd hc h⟩
      · simp only [obj, penalised]; rw [hg.val, hc]; simp
      · rw [hg.val]
  · rw [if_neg hc] at h ⊢
    rw [feq_iff] at hc
    simp only [backtrackingOwlqn] at h ⊢
    by_cases h0 : s.step ≤ 0
    · rw [if_pos h0] at h; exact absurd h (by show ¬ (0:Int) ≤ ERR_INVALIDPARAMETERS; decide)
    rw [if_neg h0] at h ⊢
    obtain ⟨_, _, hh, hf, hg, hs, hx, hok, _⟩ := owlqnLoop_spec env p s.x s.pg
      (fun i => if feq (s.x i) 0 then -s.pg i else s.x i) s.d s.fx p.maxLinesearch.toNat 0 s.step []
      (not_le.1 h0) hm hm'
    obtain ⟨hr, hd⟩ := hok h
    exact ⟨by simpa using hr, hh, hf, hg, hs.le, fun h => absurd h hc, fun h => absurd h hc, fun h => absurd h hc,
      fun _ => ⟨hs, hx, hd⟩⟩

theorem lineSearch_trials {env : Env n σ K} {p : Par K} (ok : Ok n p) (s : St n σ K) :
    (lineSearch env p s).trials.length ≤ p.maxLinesearch.toNat := by
  have hm : 0 < p.maxLinesearch.toNat := by have := ok.maxLs; omega
  have hm' : p.maxLinesearch = ((0 + p.maxLinesearch.toNat : Nat) : Int) := by have := ok.maxLs; omega
  unfold lineSearch
  by_cases hc : feq p.c 0
  · rw [if_pos hc]
    by_cases hl : p.linesearch = LS_MORETHUENTE
    · rw [if_pos hl]
      simp only [moreThuente, vecdot_eq]
      by_cases h0 : s.step ≤ 0
      · rw [if_pos h0]; exact Nat.zero_le _
      rw [if_neg h0]
      by_cases h1 : 0 < dot s.g s.d
      · rw [if_pos h1]; exact Nat.zero_le _
      rw [if_neg h1]
      have := (mtLoop_spec env p s.x s.d s.fx (dot s.g s.d) ok.minStep ok.maxStep
        p.maxLinesearch.toNat 0 ⟨0, s.fx, dot s.g s.d, 0, s.fx, dot s.g s.d, s.step, false⟩ true
        (p.maxStep - p.minStep) (const 2 1 * (p.maxStep - p.minStep)) 0 [] (le_refl _) hm hm').2.1
      simpa using this
    · rw [if_neg hl]
      simp only [backtracking, vecdot_eq]
      by_cases h0 : s.step ≤ 0
      · rw [if_pos h0]; exact Nat.zero_le _
      rw [if_neg h0]
      by_cases h1 : 0 < dot s.g s.d
      · rw [if_pos h1]; exact Nat.zero_le _
      rw [if_neg h1]
      have := (btLoop_spec env p s.x s.d s.fx (dot s.g s.d)
        p.maxLinesearch.toNat 0 s.step [] (not_le.1 h0) hm hm').2.1
      simpa using this
  · rw [if_neg hc]
    simp only [backtrackingOwlqn]
    by_cases h0 : s.step ≤ 0
    · rw [if_pos h0]; exact Nat.zero_le _
    rw [if_neg h0]
    have := (owlqnLoop_spec env p s.x s.pg
      (fun i => if feq (s.x i) 0 then -s.pg i else s.x i) s.d s.fx p.maxLinesearch.toNat 0 s.step []
      (not_le.1 h0) hm hm').2.1
    simpa using this

/-- Values and gradients of a state are those of its point. -/
structure Inv (env : Env n σ K) (p : Par K) (s : St n σ K) : Prop where
  f : s.fx = obj env p s.x
  g : s.g = (env.eval s.x).2
  pg : p.c ≠ 0 → s.pg = pseudoGradient s.x s.g p.c p.start p.stop
  d : p.c ≠ 0 → ∀ i, Penalised p.start p.stop i → s.d i = 0 ∨ s.d i * s.pg i < 0

theorem inv_start (env : Env n σ K) (p : Par K) (x0 : Fin n → K) (cb : σ) : Inv env p (start env p x0 cb) := by
  refine ⟨?_, rfl, fun hc => ?_, fun hc i _ => ?_⟩
  · show (if feq p.c 0 then (env.eval x0).1 else (env.eval x0).1 + x1norm x0 p.start p.stop * p.c) =
      (env.eval x0).1 + p.c * l1 p.start p.stop x0
    by_cases hc : feq p.c 0
    · rw [if_pos hc, feq_iff.1 hc]; simp
    · rw [if_neg hc, x1norm_eq]; ring
  · show (if feq p.c 0 then _ else _) = _
    rw [if_neg (by rw [feq_iff]; exact hc)]
    rfl
  · have hc' : ¬ feq p.c 0 := by rw [feq_iff]; exact hc
    simp only [start, effGrad, if_neg hc']
    rcases eq_or_ne (pseudoGradient x0 (env.eval x0).2 p.c p.start p.stop i) 0 with h | h
    · left; rw [h]; simp
    · right
      have := mul_self_pos.2 h
      linarith

theorem inv_next {env : Env n σ K} {p : Par K} (ok : Ok n p) {s s' : St n σ K} (h : iterate env p s = .inl s') :
    Inv env p s' := by
  obtain ⟨h0, _, _, pf, cb, rfl⟩ := iterate_inl h
  have hg := lineSearch_good ok s h0
  refine ⟨hg.f, hg.g, fun hc => ?_, fun hc i hi => ?_⟩
  · show newPg p s _ = _
    unfold newPg
    rw [if_neg (by rw [feq_iff]; exact hc)]
    rfl
  · simp only [update]
    rw [if_neg (by rw [feq_iff]; exact hc)]
    unfold constrain
    rw [if_pos (show _ ∧ _ from hi)]
    split_ifs with hd
    · exact .inl rfl
    · exact .inr (not_le.1 hd)

/-- The conditions under which the objective never increases. -/
def Mono (env : Env n σ K) (p : Par K) : Prop :=
  p.c = 0 ∨ (∀ i : Fin n, Penalised p.start p.stop i) ∨
    (ConvexGrad (fun x => (env.eval x).1) (fun x => (env.eval x).2) ∧ p.ftol < 1)

/-- Coordinate by coordinate, a projected step goes against the pseudo-gradient. -/
theorem project_descent {x d pg a : K} (ha : 0 < a) (hd : d = 0 ∨ d * pg < 0) :
    ((if (x + a * d) * (if feq x 0 then -pg else x) ≤ 0 then 0 else x + a * d) - x) * pg ≤ 0 := by
  rcases eq_or_ne x 0 with rfl | hx
  · rw [if_pos (feq_iff.2 rfl)]
    split_ifs with h
    · simp
    · rcases hd with rfl | hd
      · simp
      · nlinarith
  · rw [if_neg (fun h => hx (feq_iff.1 h))]
    split_ifs with h
    · rcases hd with rfl | hd
      · rw [mul_zero, add_zero] at h
        exact absurd h (not_le.2 (mul_self_pos.2 hx))
      · by_contra hn
        rcases lt_or_gt_of_ne hx with hx' | hx'
        · have hp : 0 < pg := by nlinarith
          have hd' : d < 0 := by nlinarith
          nlinarith [mul_pos_of_neg_of_neg hx' hd', mul_self_pos.2 hx]
        · have hp : pg < 0 := by nlinarith
          have hd' : 0 < d := by nlinarith
          nlinarith [mul_pos hx' hd', mul_self_pos.2 hx]
    · rcases hd with rfl | hd
      · simp
      · nlinarith

/-- The pseudo-gradient is a subgradient of the penalised objective. -/
theorem pseudo_subgrad {F : (Fin n → K) → K} {G : (Fin n → K) → Fin n → K} (hF : ConvexGrad F G) {c : K}
    (hc : 0 ≤ c) (start stop : Int) (x y : Fin n → K) :
    penalised F c start stop x + dot (fun i => y i - x i) (pseudoGradient x (G x) c start stop) ≤
      penalised F c start stop y := by
  have h1 := hF x y
  have hsplit : ∀ z : Fin n → K, c * l1 start stop z =
      ∑ i, (if Penalised start stop i then c * |z i| else 0) := by
    intro z
    unfold l1
    rw [mul_sum, sum_filter]
  have h2 : c * l1 start stop x + dot (fun i => y i - x i) (pseudoGradient x (G x) c start stop) ≤
      c * l1 start stop y + dot (G x) (fun i => y i - x i) := by
    unfold dot
    rw [hsplit, hsplit, ← sum_add_distrib, ← sum_add_distrib]
    apply sum_le_sum
    intro i _
    have := C63_min_norm hc start stop x (G x) i
    by_cases hi : Penalised start stop i
    · rw [if_pos hi] at this ⊢
      rw [if_pos hi]
      have := this.1 (y i)
      linarith
    · rw [if_neg hi] at this ⊢
      rw [if_neg hi, this]
      linarith
  unfold penalised
  linarith

/-- An accepted step does not increase the objective. -/
theorem step_decreases {env : Env n σ K} {p : Par K} (ok : Ok n p) (hm : Mono env p) {s : St n σ K}
    {r : LsOut n K} (inv : Inv env p s) (hg : LsGood env p s r) : r.f ≤ s.fx := by
  by_cases hc : p.c = 0
  · obtain ⟨h1, _, h2⟩ := hg.plain hc
    have := mul_nonneg hg.step (mul_nonneg ok.ftol (neg_nonneg.2 h1))
    linarith
  obtain ⟨hs, hx, hf⟩ := hg.owl hc
  have hT : dot (fun i => r.x i - s.x i) s.pg ≤ 0 := by
    rcases hm with h | h | ⟨hcv, hft⟩
    · exact absurd h hc
    · unfold dot
      apply sum_nonpos
      intro i _
      rw [hx]
      simp only [project, vecadd]
      rw [if_pos (show _ ∧ _ from h i)]
      exact project_descent hs (inv.d hc i (h i))
    · have := pseudo_subgrad hcv ok.c p.start p.stop s.x r.x
      rw [← inv.g, ← inv.pg hc] at this
      have h1 : penalised (fun x => (env.eval x).1) p.c p.start p.stop r.x = r.f := hg.f.symm
      have h2 : penalised (fun x => (env.eval x).1) p.c p.start p.stop s.x = s.fx := inv.f.symm
      rw [h1, h2] at this
      nlinarith
  have := mul_nonneg ok.ftol (neg_nonneg.2 hT)
  linarith

/-- The history of a state: what was reported, from the start `x0`. -/
structure Hist (env : Env n σ K) (p : Par K) (x0 : Fin n → K) (x : Fin n → K) (reports : List (Report n K)) :
    Prop where
  pt : x = (reports.map (·.x)).headD x0
  good : ∀ q ∈ reports, q.fx = obj env p q.x ∧ q.g = (env.eval q.x).2 ∧ q.xnorm = vec2norm env.sqrt q.x ∧
    q.gnorm = vec2norm env.sqrt (if p.c = 0 then q.g else pseudoGradient q.x q.g p.c p.start p.stop)
  ls : ∀ q ∈ reports, 1 ≤ q.ls ∧ q.ls ≤ p.maxLinesearch
  count : reports.map (·.k) = (List.range' 1 reports.length).reverse
  mono : Mono env p → (reports.map (·.fx) ++ [obj env p x0]).Pairwise (· ≤ ·)

theorem hist_value {env : Env n σ K} {p : Par K} {x0 x : Fin n → K} {l : List (Report n K)}
    (h : Hist env p x0 x l) : (l.map (·.fx) ++ [obj env p x0]).head? = some (obj env p x) := by
  rw [h.pt]
  cases l with
  | nil => rfl
  | cons q l => simp [(h.good q (List.mem_cons_self ..)).1]

theorem newPg_eq {env : Env n σ K} {p : Par K} (s : St n σ K) (r : LsOut n K) :
    effGrad p r.g (newPg p s r) = if p.c = 0 then r.g else pseudoGradient r.x r.g p.c p.start p.stop := by
  unfold effGrad newPg
  by_cases hc : p.c = 0
  · rw [if_pos (feq_iff.2 hc), if_pos hc]
  · rw [if_neg (fun h => hc (feq_iff.1 h)), if_neg hc, if_neg (fun h => hc (feq_iff.1 h))]

theorem hist_step {env : Env n σ K} {p : Par K} (ok : Ok n p) {x0 : Fin n → K} {s : St n σ K} {r : LsOut n K}
    (inv : Inv env p s) (hk : s.k = s.reports.length + 1) (hg : LsGood env p s r)
    (ht : r.trials.length ≤ p.maxLinesearch.toNat)
    (h : Hist env p x0 s.x s.reports) : Hist env p x0 r.x (rep env p s r :: s.reports) := by
  refine ⟨rfl, ?_, ?_, ?_, fun hm => ?_⟩
  · intro q hq
    rcases List.mem_cons.1 hq with rfl | hq
    · refine ⟨hg.f, hg.g, rfl, ?_⟩
      show vec2norm env.sqrt (effGrad p r.g (newPg p s r)) = _
      rw [newPg_eq (env := env)]
      rfl
    · exact h.good q hq
  · intro q hq
    rcases List.mem_cons.1 hq with rfl | hq
    · have hr := hg.ret
      have : r.trials ≠ [] := by
        intro h0
        have := hg.last
        rw [h0] at this
        cases this
      have := List.length_pos_iff.2 this
      have := ok.maxLs
      show 1 ≤ r.ret ∧ r.ret ≤ _
      omega
    · exact h.ls q hq
  · rw [List.map_cons, h.count, List.length_cons, List.range'_1_concat, List.reverse_append]
    show s.k :: _ = _
    rw [hk, Nat.add_comm]
    rfl
  · have hd := step_decreases ok hm inv hg
    have hv := hist_value h
    have hp := h.mono hm
    rw [List.map_cons, List.cons_append, List.pairwise_cons]
    refine ⟨?_, hp⟩
    rcases hl : s.reports.map (·.fx) ++ [obj env p x0] with _ | ⟨a, l⟩
    · rw [hl] at hv; cases hv
    · rw [hl] at hv hp
      have ha : a = obj env p s.x := Option.some.inj hv
      intro b hb
      rcases List.mem_cons.1 hb with rfl | hb
      · rw [ha, ← inv.f]; exact hd
      · refine le_trans ?_ ((List.pairwise_cons.1 hp).1 b hb)
        rw [ha, ← inv.f]; exact hd

/-- All invariants of the loop. -/
structure Loop (env : Env n σ K) (p : Par K) (x0 : Fin n → K) (s : St n σ K) : Prop where
  inv : Inv env p s
  hist : Hist env p x0 s.x s.reports
  k : s.k = s.reports.length + 1
  trials : s.trials.length ≤ 1 + s.reports.length * p.maxLinesearch.toNat
  evals : (s.trials.length : Int) = 1 + (s.reports.map (·.ls)).sum
  last : s.x ∈ s.trials
  limit : p.maxIterations ≠ 0 → s.k = 1 ∨ (s.k : Int) ≤ p.maxIterations

theorem loop_start (env : Env n σ K) (p : Par K) (x0 : Fin n → K) (cb : σ) :
    Loop env p x0 (start env p x0 cb) :=
  ⟨inv_start env p x0 cb, ⟨rfl, (fun _ h => by cases h), (fun _ h => by cases h), rfl, fun _ => List.pairwise_singleton _ _⟩, rfl,
    (by show 1 ≤ _; simp), rfl, List.mem_singleton.2 rfl, fun _ => .inl rfl⟩

theorem loop_next {env : Env n σ K} {p : Par K} (ok : Ok n p) {x0 : Fin n → K} {s s' : St n σ K}
    (hl : Loop env p x0 s) (h : iterate env p s = .inl s') : Loop env p x0 s' := by
  have hi := inv_next ok h
  obtain ⟨h0, _, h2, pf, cb, rfl⟩ := iterate_inl h
  have hg := lineSearch_good ok s h0
  refine ⟨hi, hist_step ok hl.inv hl.k hg (lineSearch_trials ok s) hl.hist, ?_, ?_, ?_, ?_, fun hm => .inr ?_⟩
  · show s.k + 1 = _; rw [hl.k]; rfl
  · show (_ ++ s.trials).length ≤ _
    rw [List.length_append]
    have h3 := lineSearch_trials ok s (env := env)
    have h4 := hl.trials
    show _ ≤ 1 + (s.reports.length + 1) * _
    rw [Nat.add_mul]
    omega
  · show ((_ ++ s.trials).length : Int) = 1 + (_ + (s.reports.map (·.ls)).sum)
    rw [List.length_append]
    push_cast
    rw [hl.evals, ← hg.ret]
    show _ = 1 + ((lineSearch env p s).ret + _)
    ring
  · exact List.mem_append_left _ (List.mem_of_mem_head? hg.last)
  · show ((s.k + 1 : Nat) : Int) ≤ _
    by_contra hn
    exact h2 ⟨hm, by push_cast at hn ⊢; omega⟩

/-- What holds at the end of a run. -/
structure Final (env : Env n σ K) (p : Par K) (x0 : Fin n → K) (o : Out n K) : Prop where
  hist : Hist env p x0 o.x o.reports
  trials : o.trials.length ≤ 1 + (o.reports.length + 1) * p.maxLinesearch.toNat
  evals : (o.trials.length : Int) ≤ 1 + (o.reports.map (·.ls)).sum + p.maxLinesearch ∧
    (0 ≤ o.ret ∨ o.ret = ERR_MAXIMUMITERATION → o.trials = [] ∨
      (o.trials.length : Int) = 1 + (o.reports.map (·.ls)).sum)
  last : o.trials = [] ∨ o.x ∈ o.trials
  limit : 0 < p.maxIterations → (o.reports.length : Int) ≤ p.maxIterations ∧
    o.trials.length ≤ 1 + p.maxIterations.toNat * p.maxLinesearch.toNat

theorem loop_final {env : Env n σ K} {p : Par K} (ok : Ok n p) {x0 : Fin n → K} {s : St n σ K} {o : Out n K}
    (hl : Loop env p x0 s) (h : Run env p s o) : Final env p x0 o := by
  induction h with
  | next h _ ih => exact ih (loop_next ok hl h)
  | @done s o h =>
    have h3 := lineSearch_trials ok s (env := env)
    have h4 := hl.trials
    have hlen : 0 < p.maxIterations → s.reports.length + 1 ≤ p.maxIterations.toNat := by
      intro hm
      have := hl.limit hm.ne'
      have := hl.k
      omega
    have htot : (lineSearch env p s).trials.length + s.trials.length ≤
        1 + (s.reports.length + 1) * p.maxLinesearch.toNat := by
      rw [Nat.add_mul]; omega
    rcases iterate_inr h with ⟨_, rfl⟩ | ⟨h0, hx, ht, hr, _⟩
    · refine ⟨hl.hist, ?_, ⟨?_, fun h => ?_⟩, .inr (List.mem_append_right _ hl.last), fun hm => ⟨?_, ?_⟩⟩
      · rw [List.length_append]; exact htot
      · have := ok.maxLs
        show (((_ ++ s.trials).length : Nat) : Int) ≤ 1 + (s.reports.map (·.ls)).sum + _
        rw [List.length_append]
        have := hl.evals
        push_cast
        omega
      · exfalso
        rcases h with h | h
        · exact absurd h (not_le.2 ‹_›)
        · have := lineSearch_codes env p s ok.maxLs ok.minStep ok.maxStep ‹_›
          change (lineSearch env p s).ret = _ at h
          rw [h] at this
          exact absurd this (by decide)
      · have := hlen hm
        show (s.reports.length : Int) ≤ _
        omega
      · rw [List.length_append]
        exact htot.trans (Nat.add_le_add_left (Nat.mul_le_mul_right _ (hlen hm)) _)
    · have hg := lineSearch_good ok s h0
      refine ⟨by rw [hx, hr]; exact hist_step ok hl.inv hl.k hg (lineSearch_trials ok s) hl.hist, ?_, ⟨?_, fun _ => .inr ?_⟩, ?_, fun hm => ⟨?_, ?_⟩⟩
      · rw [ht, hr, List.length_append, List.length_cons]
        refine htot.trans (Nat.add_le_add_left (Nat.mul_le_mul_right _ (Nat.le_succ _)) _)
      · have h6 := hl.evals
        have h7 := hg.ret
        have h8 := ok.maxLs
        rw [ht, hr, List.length_append, List.map_cons, List.sum_cons]
        show _ ≤ 1 + ((lineSearch env p s).ret + _) + _
        push_cast
        omega
      · have h6 := hl.evals
        have h7 := hg.ret
        rw [ht, hr, List.length_append, List.map_cons, List.sum_cons]
        show _ = 1 + ((lineSearch env p s).ret + _)
        push_cast
        omega
      · right
        rw [ht, hx]
        exact List.mem_append_left _ (List.mem_of_mem_head? hg.last)
      · have := hlen hm
        rw [hr, List.length_cons]
        omega
      · rw [ht, List.length_append]
        exact htot.trans (Nat.add_le_add_left (Nat.mul_le_mul_right _ (hlen hm)) _)

theorem final_of_lbfgs {env : Env n σ K} {p : Par K} {x0 : Fin n → K} {cb : σ} {o : Out n K}
    (h : Lbfgs env p x0 cb o) : (∃ code, check n p = some code ∧ o = ⟨code, x0, [], []⟩) ∨
      (check n p = none ∧ Final env (fillEnd n p) x0 o) := by
  cases h with
  | @rejected code hc => exact .inl ⟨code, hc, rfl⟩
  | already hc =>
    refine .inr ⟨hc, ⟨rfl, (fun _ h => by cases h), (fun _ h => by cases h), rfl,
      fun _ => List.pairwise_singleton _ _⟩, Nat.le_add_right _ _, ⟨?_, fun _ => .inr rfl⟩,
      .inr (List.mem_singleton.2 rfl), fun hm => ⟨hm.le, Nat.le_add_right _ _⟩⟩
    have := (ok_of_check hc).maxLs
    show (1 : Int) ≤ 1 + 0 + _
    omega
  | run hc _ hr => exact .inr ⟨hc, loop_final (ok_of_check hc) (loop_start _ _ _ _) hr⟩

/-- With a positive or negative iteration limit the loop ends. -/
theorem run_exists {env : Env n σ K} {p : Par K} (ok : Ok n p) (hm : p.maxIterations ≠ 0) {x0 : Fin n → K} :
    ∀ (b : Nat) (s : St n σ K), Loop env p x0 s → p.maxIterations ≤ s.k + b → ∃ o, Run env p s o := by
  intro b
  induction b with
  | zero =>
    intro s hl hb
    rcases h : iterate env p s with s' | o
    · exfalso
      obtain ⟨_, _, h2, _⟩ := iterate_inl h
      exact h2 ⟨hm, by push_cast at hb; omega⟩
    · exact ⟨o, .done h⟩
  | succ b ih =>
    intro s hl hb
    rcases h : iterate env p s with s' | o
    · have hl' := loop_next ok hl h
      have hk : s'.k = s.k + 1 := by
        obtain ⟨_, _, _, _, _, rfl⟩ := iterate_inl h
        rfl
      obtain ⟨o, ho⟩ := ih s' hl' (by rw [hk]; push_cast at hb ⊢; omega)
      exact ⟨o, .next h ho⟩
    · exact ⟨o, .done h⟩

theorem run_unique {env : Env n σ K} {p : Par K} {s : St n σ K} {o o' : Out n K} (h : Run env p s o)
    (h' : Run env p s o') : o = o' := by
  induction h with
  | done h =>
    cases h' with
    | done h2 => rw [h] at h2; exact Sum.inr.inj h2
    | next h2 => rw [h] at h2; cases h2
  | next h _ ih =>
    cases h' with
    | done h2 => rw [h] at h2; cases h2
    | next h2 h3 => rw [h] at h2; cases Sum.inl.inj h2; exact ih h3

/-- The gradient, or the pseudo-gradient of a penalised problem, at a point. -/
def slope (env : Env n σ K) (p : Par K) (x : Fin n → K) : Fin n → K :=
  if p.c = 0 then (env.eval x).2 else pseudoGradient x (env.eval x).2 p.c p.start p.stop

theorem run_success {env : Env n σ K} {p : Par K} (ok : Ok n p) {x0 : Fin n → K} {s : St n σ K} {o : Out n K}
    (hl : Loop env p x0 s) (h : Run env p s o) (hr : o.ret = SUCCESS) :
    converged p (vec2norm env.sqrt o.x) (vec2norm env.sqrt (slope env p o.x)) := by
  induction h with
  | next h _ ih => exact ih (loop_next ok hl h) hr
  | @done s o h =>
    rcases iterate_inr h with ⟨h0, rfl⟩ | ⟨h0, hx, _, _, hcode⟩
    · exact absurd hr h0.ne
    · rcases hcode with ⟨h1, _⟩ | ⟨_, h1⟩ | h1 | ⟨h1, _⟩
      · exact absurd hr h1
      · have hg := lineSearch_good ok s h0
        rw [newPg_eq (env := env)] at h1
        rw [hx]
        unfold slope
        rw [← hg.g]
        exact h1
      · rw [h1] at hr; exact absurd hr (by decide)
      · rw [h1] at hr; exact absurd hr (by decide)

theorem start_already {env : Env n σ K} {p : Par K} {x0 : Fin n → K} {cb : σ}
    (h : already env p (start env p x0 cb)) :
    converged p (vec2norm env.sqrt x0) (vec2norm env.sqrt (slope env p x0)) := by
  have : effGrad p (start env p x0 cb).g (start env p x0 cb).pg = slope env p x0 := by
    unfold effGrad slope start
    by_cases hc : p.c = 0
    · rw [if_pos (feq_iff.2 hc), if_pos hc]
    · have hc' : ¬ feq p.c 0 := fun h => hc (feq_iff.1 h)
      simp only [if_neg hc, if_neg hc']
  unfold already at h
  rw [this] at h
  exact h

theorem run_limit {env : Env n σ K} {p : Par K} (ok : Ok n p) {x0 : Fin n → K} {s : St n σ K} {o : Out n K}
    (hl : Loop env p x0 s) (h : Run env p s o) (hr : o.ret = ERR_MAXIMUMITERATION)
    (hp : ∀ cb x g a b c d k l, (env.progress cb x g a b c d k l).1 ≠ ERR_MAXIMUMITERATION) :
    p.maxIterations ≠ 0 ∧ (o.reports.length : Int) = max 1 p.maxIterations := by
  induction h with
  | next h _ ih => exact ih (loop_next ok hl h) hr
  | @done s o h =>
    rcases iterate_inr h with ⟨h0, rfl⟩ | ⟨h0, hx, _, hrep, hcode⟩
    · have := lineSearch_codes env p s ok.maxLs ok.minStep ok.maxStep h0
      change (lineSearch env p s).ret = _ at hr
      rw [hr] at this
      exact absurd this (by decide)
    · rcases hcode with ⟨_, cb, x, g, a, b, c, d, k, l, h1⟩ | ⟨h1, _⟩ | h1 | ⟨_, h1, h2⟩
      · exact absurd (h1.symm.trans hr) (hp _ _ _ _ _ _ _ _ _)
      · rw [h1] at hr; exact absurd hr (by decide)
      · rw [h1] at hr; exact absurd hr (by decide)
      · have hk := hl.k
        refine ⟨h1, ?_⟩
        rw [hrep, List.length_cons]
        rcases hl.limit h1 with h3 | h3 <;> push_cast <;> omega

/-- The convergence test in terms of squares. -/
theorem converged_sq {sqrt : K → K} (hs : ∀ v, 0 ≤ v → 0 ≤ sqrt v ∧ sqrt v * sqrt v = v) {p : Par K}
    (he : 0 ≤ p.epsilon) {x g : Fin n → K} (h : converged p (vec2norm sqrt x) (vec2norm sqrt g)) :
    dot g g ≤ p.epsilon ^ 2 * max 1 (dot x x) := by
  unfold converged vec2norm at h
  rw [vecdot_eq, vecdot_eq] at h
  have hx0 : 0 ≤ dot x x := sum_nonneg fun i _ => mul_self_nonneg _
  have hg0 : 0 ≤ dot g g := sum_nonneg fun i _ => mul_self_nonneg _
  obtain ⟨hx1, hx2⟩ := hs _ hx0
  obtain ⟨hg1, hg2⟩ := hs _ hg0
  have hpos : (0 : K) < if sqrt (dot x x) < 1 then 1 else sqrt (dot x x) := by
    split_ifs with h1
    · exact one_pos
    · exact lt_of_lt_of_le one_pos (not_lt.1 h1)
  rw [div_le_iff₀ hpos] at h
  have hsq : (if sqrt (dot x x) < 1 then 1 else sqrt (dot x x)) ^ 2 = max 1 (dot x x) := by
    split_ifs with h1
    · rw [max_eq_left (by nlinarith)]; ring
    · rw [max_eq_right (by nlinarith), sq, hx2]
  rw [← hsq, ← mul_pow, ← hg2, ← sq]
  exact pow_le_pow_left₀ hg1 h 2

/-- An array returned without a warning, if the progress callable does not return 2: the run behind it
    ended because of the convergence test. -/
theorem fmin_converged {c : Callables n σ K}
    (hp : ∀ cb x g f xn gn st k ls, (c.progress cb x g f xn gn st k ls).1 ≠ .ok (some 2))
    {a : Args K} {x0 x : Fin n → K} {cb : σ} {tr : List (Fin n → K)}
    (h : Fmin c a x0 cb (.returned x none) tr) :
    ∃ ls o, fminPar a = .ok { a.par with linesearch := ls } ∧ Lbfgs c.env { a.par with linesearch := ls } x0 cb o ∧
      x = o.x ∧ (o.ret = 0 ∨ (o.ret = 2 ∧ o.reports = [])) := by
  generalize hres : Res.returned x none = res at h
  cases h with
  | bad => cases hres
  | @run p o hpar hl =>
    have hx : x = o.x ∧ (o.ret = 0 ∨ o.ret = 2) := by
      unfold finish at hres
      split_ifs at hres with h1 h2
      · exact ⟨(Res.returned.inj hres).1, h1⟩
      · rcases hmsg : message o.ret with _ | m
        · rw [hmsg] at hres; cases hres
        · rw [hmsg] at hres; exact absurd (Res.returned.inj hres).2 (by simp)
      · rcases hmsg : message o.ret with _ | m
        · rw [hmsg] at hres; cases hres
        · rw [hmsg] at hres; cases hres
    obtain ⟨hx, hret⟩ := hx
    have hpe : ∃ ls, p = { a.par with linesearch := ls } := by
      unfold fminPar at hpar
      split_ifs at hpar
      split at hpar
      · cases hpar
      · exact ⟨_, (Except.ok.inj hpar).symm⟩
    obtain ⟨ls, rfl⟩ := hpe
    have h2 : o.ret = 2 → o.reports = [] := by
      intro hr
      cases hl with
      | rejected => rfl
      | already => rfl
      | run hc _ hrun =>
        exfalso
        have hne : ∀ {s : St n σ K} {o : Out n K}, Run c.env (fillEnd n { a.par with linesearch := ls }) s o →
            o.ret ≠ 2 := by
          intro s o h
          induction h with
          | next _ _ ih => exact ih
          | @done s o h =>
            intro h2
            rcases iterate_inr h with ⟨h0, rfl⟩ | ⟨_, _, _, _, hcode⟩
            · change (lineSearch _ _ _).ret = 2 at h2; omega
            · rcases hcode with ⟨_, cb, x, g, a, b, d, e, k, l, h1⟩ | ⟨h1, _⟩ | h1 | ⟨h1, _⟩
              · rw [h2] at h1
                have := hp cb x g a b d e k l
                simp only [Callables.env] at h1
                rcases hpr : (c.progress cb x g a b d e k l).1 with e | _ | v
                · rw [hpr] at h1; cases h1
                · rw [hpr] at h1; cases h1
                · rw [hpr] at h1 this; exact this (congrArg (fun v => Except.ok (some v)) h1.symm)
              · rw [h1] at h2; cases h2
              · rw [h1] at h2; cases h2
              · rw [h1] at h2; cases h2
        exact hne hrun hr
    exact ⟨ls, o, hpar, hl, hx, hret.imp_right fun h => ⟨h, h2 h⟩⟩

/-- While the steps stay between the limits the penalised search fails only because of the number of
    evaluations. -/
theorem owlqnLoop_steps (env : Env n σ K) (p : Par K) (hmin : 0 ≤ p.minStep) (xp pg wp s : Fin n → K) (finit : K) :
    ∀ (rem count : Nat) (stp : K) (tr : List (Fin n → K)), p.maxLinesearch = ((count + (rem + 1) : Nat) : Int) →
      p.minStep * 2 ^ rem ≤ stp → stp ≤ p.maxStep →
      let r := owlqnLoop env p xp pg wp s finit (rem + 1) count stp tr
      0 ≤ r.ret ∨ r.ret = ERR_MAXIMUMLINESEARCH := by
  intro rem
  induction rem with
  | zero =>
    intro count stp tr hm h1 h2
    simp only [owlqnLoop]
    split_ifs with a1 a2 a3 a4
    · left; show (0 : Int) ≤ (count : Int) + 1; positivity
    · exfalso; simp at h1; exact absurd h1 (not_le.2 a2)
    · exact absurd h2 (not_le.2 a3)
    · exact .inr rfl
    · exfalso; rw [hm] at a4; push_cast at a4; omega
  | succ rem ih =>
    intro count stp tr hm h1 h2
    rw [owlqnLoop]
    simp only
    have hp : p.minStep ≤ p.minStep * 2 ^ (rem + 1) := le_mul_of_one_le_right hmin (one_le_pow₀ one_le_two)
    have hs : 0 ≤ stp := le_trans (mul_nonneg hmin (by positivity)) h1
    split_ifs with a1 a2 a3 a4
    · left; show (0 : Int) ≤ (count : Int) + 1; positivity
    · exact absurd (hp.trans h1) (not_le.2 a2)
    · exact absurd h2 (not_le.2 a3)
    · exact .inr rfl
    · have hhalf : stp * const 1 2 = stp / 2 := by unfold const; push_cast; ring
      refine ih (count + 1) _ _ (by rw [hm]; push_cast; ring) ?_ ?_
      · rw [hhalf, le_div_iff₀ two_pos, mul_assoc, ← pow_succ]; exact h1
      · rw [hhalf]; exact le_trans (half_le_self hs) h2

/-- The codes of a penalised run whose first step and unit steps stay between the limits. -/
theorem run_codes_owlqn {env : Env n σ K} {p : Par K} (hc : p.c ≠ 0) (hmin : 0 ≤ p.minStep) (hm : 0 < p.maxLinesearch)
    (hpast : p.past = 0) (h1 : p.minStep * 2 ^ (p.maxLinesearch.toNat - 1) ≤ 1) (h2 : 1 ≤ p.maxStep)
    {s : St n σ K} {o : Out n K} (h : Run env p s o) (hs0 : 0 < s.step)
    (hs : p.minStep * 2 ^ (p.maxLinesearch.toNat - 1) ≤ s.step ∧ s.step ≤ p.maxStep) :
    o.ret = ERR_MAXIMUMLINESEARCH ∨ o.ret = SUCCESS ∨ o.ret = ERR_MAXIMUMITERATION ∨
      ∃ cb x g a b c d k l, o.ret ≠ 0 ∧ o.ret = (env.progress cb x g a b c d k l).1 := by
  induction h with
  | @next s s' o h _ ih =>
    obtain ⟨_, _, _, pf, cb, rfl⟩ := iterate_inl h
    exact ih one_pos ⟨h1, h2⟩
  | @done s o h =>
    rcases iterate_inr h with ⟨h0, rfl⟩ | ⟨_, _, _, _, hcode⟩
    · left
      have hr : 0 ≤ (lineSearch env p s).ret ∨ (lineSearch env p s).ret = ERR_MAXIMUMLINESEARCH := by
        unfold lineSearch
        rw [if_neg (by rw [feq_iff]; exact hc)]
        unfold backtrackingOwlqn
        rw [if_neg (not_le.2 hs0)]
        obtain ⟨k, hk⟩ : ∃ k, p.maxLinesearch.toNat = k + 1 := ⟨p.maxLinesearch.toNat - 1, by omega⟩
        simp only
        rw [hk] at hs ⊢
        exact owlqnLoop_steps env p hmin _ _ _ _ _ k 0 _ _ (by omega) hs.1 hs.2
      rcases hr with hr | hr
      · exact absurd hr (not_le.2 h0)
      · exact hr
    · rcases hcode with ⟨hne, cb, x, g, a, b, d, e, k, l, h1⟩ | ⟨h1, _⟩ | h1 | ⟨h1, _⟩
      · exact .inr (.inr (.inr ⟨cb, x, g, a, b, d, e, k, l, hne, h1⟩))
      · exact .inr (.inl h1)
      · have hm1 : p.minStep ≤ p.maxStep := by
          have : p.minStep ≤ p.minStep * 2 ^ (p.maxLinesearch.toNat - 1) :=
            le_mul_of_one_le_right hmin (one_le_pow₀ one_le_two)
          exact this.trans (hs.1.trans hs.2)
        rcases run_codes env p hm hmin hm1 (.done h) with h3 | h3 | h3 | ⟨_, h3, _⟩ | h3
        · rw [h1] at h3; exact absurd h3 (by decide)
        · exact .inr (.inl h3)
        · exact .inr (.inr (.inl h3))
        · omega
        · exact .inr (.inr (.inr h3))
      · exact .inr (.inr (.inl h1))

end Verif.Lbfgs
