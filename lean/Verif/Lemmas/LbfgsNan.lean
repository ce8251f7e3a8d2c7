import Verif.Spec.LbfgsNan
/-! Lemmas on the minimiser with NaN. -/
namespace Verif.Lbfgs
open Verif.Spec.LbfgsNan

variable {n : Nat} {σ F : Type} [Zero F] [One F] [Add F] [Sub F] [Mul F] [Div F] [Neg F] [NatCast F]
  [LT F] [LE F] [DecidableLT F] [DecidableLE F] {ν : F}

theorem foldl_ν (hν : IsNan ν) {m : Nat} (f : Fin m → F) (l : List (Fin m)) : l.foldl (fun s i => s + f i) ν = ν := by
  induction l with
  | nil => rfl
  | cons a l ih => rw [List.foldl_cons, hν.add_left, ih]

/-- A sum with a NaN is NaN. -/
theorem vsum_ν (hν : IsNan ν) {m : Nat} {f : Fin m → F} {i : Fin m} (h : f i = ν) : vsum f = ν := by
  have : ∀ (l : List (Fin m)) s, i ∈ l → l.foldl (fun s i => s + f i) s = ν := by
    intro l
    induction l with
    | nil => intro s hi; cases hi
    | cons a l ih =>
      intro s hi
      rw [List.foldl_cons]
      rcases List.mem_cons.1 hi with rfl | hi
      · rw [h, hν.add_right, foldl_ν hν]
      · exact ih _ hi
  exact this _ _ (List.mem_finRange i)

theorem vecdot_ν (hν : IsNan ν) (i : Fin n) (y : Vec n F) : vecdot (fun _ => ν) y = ν :=
  vsum_ν hν (i := i) (hν.mul_left _)

theorem loop1_ν (hν : IsNan ν) (m : Nat) (b : Nat) : ∀ (j : Nat) (lm : List (Slot n F)),
    (loop1 m b j (fun _ => ν) lm).2.1 = fun _ => ν := by
  induction b with
  | zero => intro j lm; rfl
  | succ b ih =>
    intro j lm
    rw [loop1]
    rw [show vecadd (fun _ : Fin n => ν) (lm.getD ((j + m - 1) % m) Slot.empty).y
      (-(vecdot (lm.getD ((j + m - 1) % m) Slot.empty).s (fun _ => ν) / (lm.getD ((j + m - 1) % m) Slot.empty).ys)) =
      fun _ => ν from funext fun i => hν.add_left _]
    exact ih _ _

theorem loop2_ν (hν : IsNan ν) (m : Nat) (lm : List (Slot n F)) (b : Nat) : ∀ j : Nat,
    loop2 m lm b j (fun _ => ν) = fun _ => ν := by
  induction b with
  | zero => intro j; rfl
  | succ b ih =>
    intro j
    rw [loop2]
    rw [show vecadd (fun _ : Fin n => ν) (lm.getD j Slot.empty).s
      ((lm.getD j Slot.empty).alpha - vecdot (lm.getD j Slot.empty).y (fun _ => ν) / (lm.getD j Slot.empty).ys) =
      fun _ => ν from funext fun i => hν.add_left _]
    exact ih _

/-- The direction from a NaN gradient is NaN. -/
theorem newDirection_ν (hν : IsNan ν) (p : Par F) (hc : feq p.c 0) (s : St n σ F) (r : LsOut n F) (hg : r.g = fun _ => ν)
    (pg : Vec n F) : (newDirection p s r pg).1 = fun _ => ν := by
  have hq : (fun i => - effGrad p r.g pg i) = fun _ : Fin n => ν := by
    funext i
    rw [effGrad, if_pos hc, hg, hν.neg]
  rw [newDirection, hq, direction]
  have h1 := loop1_ν (n := n) hν p.m.toNat (if p.m ≤ (s.k : Int) then p.m.toNat else s.k) ((s.stop + 1) % p.m.toNat)
    (storeLm s r)
  revert h1
  rcases loop1 p.m.toNat (if p.m ≤ (s.k : Int) then p.m.toNat else s.k) ((s.stop + 1) % p.m.toNat) (fun _ => ν) (storeLm s r)
    with ⟨j, d, lm⟩
  intro h1
  simp only at h1 ⊢
  rw [h1, show (fun _ : Fin n => ν * scaling s r) = fun _ => ν from funext fun _ => hν.mul_left _]
  exact loop2_ν hν _ _ _ _

/-- A backtracking search accepts an undefined first trial. -/
theorem backtracking_accepts (hν : IsNan ν) (env : Env n σ F) (p : Par F) (i : Fin n) (hm : 0 < p.maxLinesearch)
    (x : Vec n F) (f : F) (g s : Vec n F) {stp : F} (hs : ¬ stp ≤ 0) (hd : ¬ 0 < vecdot g s)
    (hu : Undefined env ν (vecadd x s stp)) :
    backtracking env p x f g s stp = ⟨1, vecadd x s stp, ν, fun _ => ν, stp, [vecadd x s stp]⟩ := by
  obtain ⟨r, hr⟩ : ∃ r, p.maxLinesearch.toNat = r + 1 := ⟨p.maxLinesearch.toNat - 1, by omega⟩
  unfold backtracking
  rw [if_neg hs]
  simp only
  rw [if_neg hd, hr, btLoop]
  unfold Undefined at hu
  rw [hu]
  simp only
  rw [if_neg (hν.lt_right _), vecdot_ν hν i, if_neg (hν.lt_left _), if_neg (hν.lt_right _)]
  split_ifs <;> rfl

/-- The state of the main loop from which nothing but NaN follows. -/
structure Lost (ν : F) (s : St n σ F) : Prop where
  g : s.g = fun _ => ν
  d : s.d = fun _ => ν
  step : ¬ s.step ≤ 0

theorem vecadd_ν (hν : IsNan ν) (x : Vec n F) (c : F) : vecadd x (fun _ => ν) c = fun _ => ν :=
  funext fun i => by rw [vecadd, hν.mul_right, hν.add_right]

theorem lost_search (hν : IsNan ν) {env : Env n σ F} {p : Par F} (i : Fin n) (hc : feq p.c 0)
    (hl : p.linesearch ≠ LS_MORETHUENTE) (hm : 0 < p.maxLinesearch) (hu : Undefined env ν fun _ => ν)
    {s : St n σ F} (hs : Lost ν s) :
    lineSearch env p s = ⟨1, fun _ => ν, ν, fun _ => ν, s.step, [fun _ => ν]⟩ := by
  rw [lineSearch, if_pos hc, if_neg hl, hs.g, hs.d,
    backtracking_accepts hν env p i hm s.x s.fx _ _ hs.step (by rw [vecdot_ν hν i]; exact hν.lt_right _)
      (by rw [vecadd_ν hν]; exact hu), vecadd_ν hν]

/-- What an iteration makes of an accepted undefined trial. -/
theorem iterate_undefined (hν : IsNan ν) {env : Env n σ F} {p : Par F} (i : Fin n) (hc : feq p.c 0)
    (hsq : env.sqrt ν = ν) (hpr : NeverCancels env) (h1 : ¬ (1 : F) ≤ 0) {s : St n σ F} {x : Vec n F} {stp : F}
    {tr : List (Vec n F)} (hr : lineSearch env p s = ⟨1, x, ν, fun _ => ν, stp, tr⟩) :
    (p.maxIterations ≠ 0 ∧ p.maxIterations < (s.k : Int) + 1 →
      ∃ o, iterate env p s = .inr o ∧ o.ret = ERR_MAXIMUMITERATION ∧ o.x = x) ∧
    (¬ (p.maxIterations ≠ 0 ∧ p.maxIterations < (s.k : Int) + 1) →
      ∃ s', iterate env p s = .inl s' ∧ Lost ν s' ∧ s'.k = s.k + 1 ∧ s'.x = x) := by
  have hgn : ∀ pg, vec2norm env.sqrt (effGrad p (fun _ : Fin n => ν) pg) = ν := by
    intro pg
    rw [effGrad, if_pos hc, vec2norm, vecdot_ν hν i, hsq]
  have hcv : ∀ a pg, ¬ converged p a (vec2norm env.sqrt (effGrad p (fun _ : Fin n => ν) pg)) := by
    intro a pg
    rw [hgn, converged, hν.div_left]
    exact hν.le_left _
  have hds : ¬ deltaStop p s ν := by
    rintro ⟨_, _, h⟩
    rw [hν.div_right, fabs, if_neg (hν.lt_left _)] at h
    exact hν.lt_left _ h
  have hnd := newDirection_ν hν p hc s ⟨1, x, ν, fun _ => ν, stp, tr⟩ rfl
    (newPg p s ⟨1, x, ν, fun _ => ν, stp, tr⟩)
  constructor
  · intro hmax
    have hgv := hcv (vec2norm env.sqrt x) (newPg p s ⟨1, x, ν, fun _ => ν, stp, tr⟩)
    refine ⟨⟨ERR_MAXIMUMITERATION, x, tr ++ s.trials, ⟨x, fun _ => ν, ν, vec2norm env.sqrt x,
      vec2norm env.sqrt (effGrad p (fun _ => ν) (newPg p s ⟨1, x, ν, fun _ => ν, stp, tr⟩)), stp, s.k, 1⟩ :: s.reports⟩,
      ?_, rfl, rfl⟩
    rw [iterate, hr]
    simp only
    rw [if_neg (by decide), if_neg (not_not.2 (hpr _ _ _ _ _ _ _ _ _)), if_neg hgv, if_neg hds, if_pos hmax]
  · intro hmax
    have hgv := hcv (vec2norm env.sqrt x) (newPg p s ⟨1, x, ν, fun _ => ν, stp, tr⟩)
    refine ⟨_, by
      rw [iterate, hr]
      simp only
      rw [if_neg (by decide), if_neg (not_not.2 (hpr _ _ _ _ _ _ _ _ _)), if_neg hgv, if_neg hds, if_neg hmax], ?_, rfl, rfl⟩
    refine ⟨rfl, ?_, h1⟩
    simp only [update]
    rw [if_pos hc]
    exact hnd

/-! ### Searches that notice -/

theorem mtLoop_value (hν : IsNan ν) (env : Env n σ F) (p : Par F) (xp s : Vec n F) (finit dginit : F) :
    ∀ (rem count : Nat) (v : Interval F) (st : Bool) (w pw : F) (u : Int) (tr : List (Vec n F)),
    let r := mtLoop env p xp s finit dginit rem count v st w pw u tr
    0 ≤ r.ret → r.f = (env.eval r.x).1 ∧ r.g = (env.eval r.x).2 ∧ r.f ≠ ν ∧ finit ≠ ν := by
  intro rem
  induction rem with
  | zero => intro count v st w pw u tr r h; exact absurd (show (0 : Int) ≤ ERR_LOGIC from h) (by decide)
  | succ rem ih =>
    intro count v st w pw u tr
    simp only
    rw [mtLoop]
    rcases hb : mtBounds v with ⟨smin, smax⟩
    rcases he : env.eval (vecadd xp s (mtClip p v count u smin smax)) with ⟨f, g⟩
    simp only
    split_ifs with h1 h2 h3 h4 h5 h6
    · intro h; exact absurd (show (0 : Int) ≤ ERR_ROUNDING from h) (by decide)
    · intro h; exact absurd (show (0 : Int) ≤ ERR_MAXIMUMSTEP from h) (by decide)
    · intro h; exact absurd (show (0 : Int) ≤ ERR_MINIMUMSTEP from h) (by decide)
    · intro h; exact absurd (show (0 : Int) ≤ ERR_WIDTH from h) (by decide)
    · intro h; exact absurd (show (0 : Int) ≤ ERR_MAXIMUMLINESEARCH from h) (by decide)
    · intro _
      refine ⟨rfl, rfl, ?_, ?_⟩
      · rintro rfl; exact hν.le_left _ h6.1
      · rintro rfl; rw [hν.add_left] at h6; exact hν.le_right _ h6.1
    all_goals exact ih _ _ _ _ _ _ _

theorem owlqnLoop_value (hν : IsNan ν) (env : Env n σ F) (p : Par F) (xp pg wp s : Vec n F) (finit : F) :
    ∀ (rem count : Nat) (stp : F) (tr : List (Vec n F)),
    let r := owlqnLoop env p xp pg wp s finit rem count stp tr
    0 ≤ r.ret → r.f = (env.eval r.x).1 + x1norm r.x p.start p.stop * p.c ∧ r.g = (env.eval r.x).2 ∧ r.f ≠ ν ∧
      finit ≠ ν := by
  intro rem
  induction rem with
  | zero => intro count stp tr r h; exact absurd (show (0 : Int) ≤ ERR_LOGIC from h) (by decide)
  | succ rem ih =>
    intro count stp tr
    simp only
    rw [owlqnLoop]
    rcases he : env.eval (project (vecadd xp s stp) wp p.start p.stop) with ⟨f, g⟩
    simp only
    split_ifs with h1 h2 h3 h4
    · intro _
      refine ⟨by rw [he], by rw [he], ?_, ?_⟩
      · intro e
        have e' : f + x1norm (project (vecadd xp s stp) wp p.start p.stop) p.start p.stop * p.c = ν := e
        rw [e'] at h1
        exact hν.le_left _ h1
      · rintro rfl; rw [hν.add_left] at h1; exact hν.le_right _ h1
    · intro h; exact absurd (show (0 : Int) ≤ ERR_MINIMUMSTEP from h) (by decide)
    · intro h; exact absurd (show (0 : Int) ≤ ERR_MAXIMUMSTEP from h) (by decide)
    · intro h; exact absurd (show (0 : Int) ≤ ERR_MAXIMUMLINESEARCH from h) (by decide)
    · exact ih _ _ _

theorem lineSearch_value (hν : IsNan ν) (env : Env n σ F) (p : Par F) (s : St n σ F)
    (hp : feq p.c 0 → p.linesearch = LS_MORETHUENTE) (h : 0 ≤ (lineSearch env p s).ret) :
    (lineSearch env p s).f = value env p (lineSearch env p s).x ∧ (lineSearch env p s).f ≠ ν ∧ s.fx ≠ ν := by
  by_cases hc : feq p.c 0
  · have he : lineSearch env p s = moreThuente env p s.x s.fx s.g s.d s.step := by
      rw [lineSearch, if_pos hc, if_pos (hp hc)]
    rw [he] at h ⊢
    rw [value, if_pos hc]
    unfold moreThuente at h ⊢
    simp only at h ⊢
    split_ifs at h ⊢ with h1 h2
    · exact absurd (show (0 : Int) ≤ ERR_INVALIDPARAMETERS from h) (by decide)
    · exact absurd (show (0 : Int) ≤ ERR_INCREASEGRADIENT from h) (by decide)
    · have := mtLoop_value hν env p s.x s.d s.fx (vecdot s.g s.d) p.maxLinesearch.toNat 0
        ⟨0, s.fx, vecdot s.g s.d, 0, s.fx, vecdot s.g s.d, s.step, false⟩ true (p.maxStep - p.minStep)
        (const 2 1 * (p.maxStep - p.minStep)) 0 [] h
      exact ⟨this.1, this.2.2⟩
  · have he : lineSearch env p s = backtrackingOwlqn env p s.x s.fx s.g s.pg s.d s.step := by
      rw [lineSearch, if_neg hc]
    rw [he] at h ⊢
    rw [value, if_neg hc]
    unfold backtrackingOwlqn at h ⊢
    simp only at h ⊢
    split_ifs at h ⊢ with h1
    · exact absurd (show (0 : Int) ≤ ERR_INVALIDPARAMETERS from h) (by decide)
    · have := owlqnLoop_value hν env p s.x s.pg (fun i => if feq (s.x i) 0 then -s.pg i else s.x i) s.d s.fx
        p.maxLinesearch.toNat 0 s.step [] h
      exact ⟨this.1, this.2.2⟩

/-- What an iteration does with searches that notice. -/
theorem iterate_value (hν : IsNan ν) (env : Env n σ F) (p : Par F) (s : St n σ F)
    (hp : feq p.c 0 → p.linesearch = LS_MORETHUENTE) :
    (∀ s', iterate env p s = .inl s' → s.fx ≠ ν ∧ s'.fx ≠ ν ∧ s'.fx = value env p s'.x ∧
      ∃ r, s'.reports = r :: s.reports ∧ r.fx ≠ ν) ∧
    (∀ o, iterate env p s = .inr o → (o.ret < 0 ∧ o.x = s.x ∧ o.reports = s.reports) ∨
      (s.fx ≠ ν ∧ value env p o.x ≠ ν ∧ ∃ r, o.reports = r :: s.reports ∧ r.fx ≠ ν)) := by
  rw [iterate]
  simp only
  by_cases hr : (lineSearch env p s).ret < 0
  · rw [if_pos hr]
    exact ⟨fun s' h => (by cases h), fun o h => by cases h; exact .inl ⟨hr, rfl, rfl⟩⟩
  · obtain ⟨hv, hf, hx⟩ := lineSearch_value hν env p s hp (not_lt.1 hr)
    have hv' : value env p (lineSearch env p s).x ≠ ν := hv ▸ hf
    rw [if_neg hr]
    split_ifs
    · exact ⟨fun s' h => (by cases h), fun o h => by cases h; exact .inr ⟨hx, hv', _, rfl, hf⟩⟩
    · exact ⟨fun s' h => (by cases h), fun o h => by cases h; exact .inr ⟨hx, hv', _, rfl, hf⟩⟩
    · exact ⟨fun s' h => (by cases h), fun o h => by cases h; exact .inr ⟨hx, hv', _, rfl, hf⟩⟩
    · exact ⟨fun s' h => (by cases h), fun o h => by cases h; exact .inr ⟨hx, hv', _, rfl, hf⟩⟩
    · refine ⟨fun s' h => ?_, fun o h => by cases h⟩
      cases h
      exact ⟨hx, hf, hv, _, rfl, hf⟩

theorem run_value (hν : IsNan ν) {env : Env n σ F} {p : Par F} (hp : feq p.c 0 → p.linesearch = LS_MORETHUENTE)
    {s : St n σ F} {o : Out n F} (h : Run env p s o) (hs : s.fx = value env p s.x) (hr : ∀ r ∈ s.reports, r.fx ≠ ν) :
    (∀ r ∈ o.reports, r.fx ≠ ν) ∧ (o.x = s.x ∨ value env p o.x ≠ ν) ∧
      (s.fx = ν → o.ret < 0 ∧ o.x = s.x ∧ o.reports = s.reports) := by
  induction h with
  | @done s o h =>
    rcases (iterate_value hν env p s hp).2 _ h with ⟨h1, h2, h3⟩ | ⟨h1, h2, r, h3, h4⟩
    · exact ⟨h3 ▸ hr, .inl h2, fun _ => ⟨h1, h2, h3⟩⟩
    · refine ⟨?_, .inr h2, fun e => absurd e h1⟩
      rw [h3]
      intro q hq
      rcases List.mem_cons.1 hq with rfl | hq
      · exact h4
      · exact hr _ hq
  | @next s s' o h _ ih =>
    obtain ⟨h1, h2, h3, r, h4, h5⟩ := (iterate_value hν env p s hp).1 _ h
    have := ih h3 (by
      rw [h4]
      intro q hq
      rcases List.mem_cons.1 hq with rfl | hq
      · exact h5
      · exact hr _ hq)
    refine ⟨this.1, .inr ?_, fun e => absurd e h1⟩
    rcases this.2.1 with e | e
    · rw [e, ← h3]; exact h2
    · exact e

theorem start_value (env : Env n σ F) (p : Par F) (x0 : Vec n F) (cb : σ) :
    (start env p x0 cb).fx = value env p x0 ∧ (start env p x0 cb).x = x0 ∧ (start env p x0 cb).reports = [] :=
  ⟨rfl, rfl, rfl⟩

/-! ### Searches that do not -/

theorem run_of_reach {env : Env n σ F} {p : Par F} {x0 : Vec n F} {cb : σ} {s : St n σ F} (h : Reach env p x0 cb s)
    {o : Out n F} (ho : Run env (fillEnd n p) (start env (fillEnd n p) x0 cb) o) : Run env (fillEnd n p) s o := by
  induction h with
  | start => exact ho
  | next _ hi ih =>
    cases ih with
    | done hd => rw [hi] at hd; cases hd
    | next hn hr => rw [hi] at hn; cases hn; exact hr

theorem not_already_of_reach {env : Env n σ F} {p : Par F} {x0 : Vec n F} {cb : σ} {s : St n σ F}
    (h : Reach env p x0 cb s) : ¬ already env (fillEnd n p) (start env (fillEnd n p) x0 cb) := by
  induction h with
  | start _ ha => exact ha
  | next _ _ ih => exact ih

theorem ite_some_neg {c : Prop} [Decidable c] {a : Int} {b : Option Int} (ha : a < 0) (hb : ∀ e, b = some e → e < 0) :
    ∀ e, (if c then some a else b) = some e → e < 0 := by
  intro e h
  by_cases hc : c
  · rw [if_pos hc] at h; cases h; exact ha
  · rw [if_neg hc] at h; exact hb e h

theorem check_neg (p : Par F) : ∀ e, check n p = some e → e < 0 := by
  unfold check
  iterate 14 refine ite_some_neg (by decide) ?_
  intro e h
  by_cases h1 : feq p.c 0
  · rw [if_neg (not_not.2 h1)] at h
    split at h <;> cases h
    decide
  · rw [if_pos h1] at h
    split at h <;> cases h
    decide

theorem fillEnd_fields (p : Par F) : (fillEnd n p).c = p.c ∧ (fillEnd n p).linesearch = p.linesearch ∧
    (fillEnd n p).maxLinesearch = p.maxLinesearch ∧ (fillEnd n p).maxIterations = p.maxIterations := by
  unfold fillEnd
  split_ifs <;> exact ⟨rfl, rfl, rfl, rfl⟩

theorem lost_not_run (hν : IsNan ν) {env : Env n σ F} {p : Par F} (i : Fin n) (hc : feq p.c 0)
    (hl : p.linesearch ≠ LS_MORETHUENTE) (hm : 0 < p.maxLinesearch) (hu : Undefined env ν fun _ => ν)
    (hsq : env.sqrt ν = ν) (hpr : NeverCancels env) (h1 : ¬ (1 : F) ≤ 0) (hi : p.maxIterations = 0)
    {s : St n σ F} {o : Out n F} (h : Run env p s o) : ¬ Lost ν s := by
  induction h with
  | @done s o h =>
    intro hs
    obtain ⟨s', h', _⟩ := (iterate_undefined hν i hc hsq hpr h1 (lost_search hν i hc hl hm hu hs)).2
      (fun e => e.1 hi)
    rw [h] at h'; cases h'
  | @next s s' o h _ ih =>
    intro hs
    obtain ⟨t, h', ht, _⟩ := (iterate_undefined hν i hc hsq hpr h1 (lost_search hν i hc hl hm hu hs)).2
      (fun e => e.1 hi)
    rw [h] at h'; cases h'
    exact ih ht

theorem lost_limited (hν : IsNan ν) {env : Env n σ F} {p : Par F} (i : Fin n) (hc : feq p.c 0)
    (hl : p.linesearch ≠ LS_MORETHUENTE) (hm : 0 < p.maxLinesearch) (hu : Undefined env ν fun _ => ν)
    (hsq : env.sqrt ν = ν) (hpr : NeverCancels env) (h1 : ¬ (1 : F) ≤ 0)
    {s : St n σ F} {o : Out n F} (h : Run env p s o) (hs : Lost ν s) :
    o.ret = ERR_MAXIMUMITERATION ∧ o.x = fun _ => ν := by
  induction h with
  | @done s o h =>
    have := iterate_undefined hν i hc hsq hpr h1 (lost_search hν i hc hl hm hu hs)
    by_cases hx : p.maxIterations ≠ 0 ∧ p.maxIterations < (s.k : Int) + 1
    · obtain ⟨o', h', e⟩ := this.1 hx
      rw [h] at h'; cases h'; exact e
    · obtain ⟨s', h', _⟩ := this.2 hx
      rw [h] at h'; cases h'
  | @next s s' o h _ ih =>
    have := iterate_undefined hν i hc hsq hpr h1 (lost_search hν i hc hl hm hu hs)
    by_cases hx : p.maxIterations ≠ 0 ∧ p.maxIterations < (s.k : Int) + 1
    · obtain ⟨o', h', e⟩ := this.1 hx
      rw [h] at h'; cases h'
    · obtain ⟨s', h', ht, _⟩ := this.2 hx
      rw [h] at h'; cases h'
      exact ih ht

theorem lost_start (hν : IsNan ν) {env : Env n σ F} {p : Par F} (i : Fin n) (hc : feq p.c 0) (hsq : env.sqrt ν = ν)
    {x0 : Vec n F} (hu : Undefined env ν x0) (cb : σ) :
    Lost ν (start env p x0 cb) ∧ ¬ already env p (start env p x0 cb) := by
  unfold Undefined at hu
  have hg : (start env p x0 cb).g = fun _ => ν := by rw [start, hu]
  have hd : (start env p x0 cb).d = fun _ => ν := by
    rw [start, hu]
    simp only
    rw [effGrad, if_pos hc]
    exact funext fun _ => hν.neg
  have hst : (start env p x0 cb).step = 1 / vec2norm env.sqrt (start env p x0 cb).d := rfl
  refine ⟨⟨hg, hd, ?_⟩, ?_⟩
  · rw [hst, hd, vec2norm, vecdot_ν hν i, hsq, hν.div_right]
    exact hν.le_left _
  · rw [already, effGrad, if_pos hc, hg, vec2norm, vec2norm, vecdot_ν hν i, hsq, converged, hν.div_left]
    exact hν.le_left _

/-- A main-loop state whose first trial is undefined leads to a lost one. -/
theorem lost_next (hν : IsNan ν) {env : Env n σ F} {p : Par F} (i : Fin n) (hc : feq p.c 0)
    (hl : p.linesearch ≠ LS_MORETHUENTE) (hm : 0 < p.maxLinesearch)
    (hsq : env.sqrt ν = ν) (hpr : NeverCancels env) (h1 : ¬ (1 : F) ≤ 0) {s : St n σ F} (hs : ¬ s.step ≤ 0)
    (hd : ¬ 0 < vecdot s.g s.d) (hu : Undefined env ν (vecadd s.x s.d s.step)) (hi : p.maxIterations = 0) :
    ∃ s', iterate env p s = .inl s' ∧ Lost ν s' := by
  have hr : lineSearch env p s = ⟨1, vecadd s.x s.d s.step, ν, fun _ => ν, s.step, [vecadd s.x s.d s.step]⟩ := by
    rw [lineSearch, if_pos hc, if_neg hl]
    exact backtracking_accepts hν env p i hm _ _ _ _ hs hd hu
  obtain ⟨s', h, hl, _⟩ := (iterate_undefined hν i hc hsq hpr h1 hr).2 (fun e => e.1 hi)
  exact ⟨s', h, hl⟩

end Verif.Lbfgs
