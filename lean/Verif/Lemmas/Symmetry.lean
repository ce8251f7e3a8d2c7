import Verif.Spec.Symmetry
import Verif.Lemmas.Owlqn
import Verif.Lemmas.LbfgsPy
/-! Helper lemmas: the minimiser commutes with changes of variables. -/
namespace Verif.Lbfgs
open Finset Spec

variable {n : Nat} {σ K : Type} [Field K] [LinearOrder K] [IsStrictOrderedRing K]

/-- A change of variables that all parts of the minimiser commute with. -/
structure Compat (T : Vec n K → Vec n K) (p : Par K) : Prop where
  rot : Rotation T
  norm : p.c ≠ 0 → ∀ x, x1norm (T x) p.start p.stop = x1norm x p.start p.stop
  pg : p.c ≠ 0 → ∀ x g, pseudoGradient (T x) (T g) p.c p.start p.stop = T (pseudoGradient x g p.c p.start p.stop)
  proj : p.c ≠ 0 → ∀ d w, project (T d) (T w) p.start p.stop = T (project d w p.start p.stop)
  con : p.c ≠ 0 → ∀ d g, constrain (T d) (T g) p.start p.stop = T (constrain d g p.start p.stop)
  orth : p.c ≠ 0 → ∀ x g, (fun i => if feq (T x i) 0 then - T g i else T x i) =
    T (fun i => if feq (x i) 0 then - g i else x i)

/-- The same callbacks in the changed variables. -/
structure EnvRel (T : Vec n K → Vec n K) (env env' : Env n σ K) : Prop where
  sqrt : env'.sqrt = env.sqrt
  eval : ∀ x, env'.eval (T x) = ((env.eval x).1, T (env.eval x).2)
  progress : ∀ cb x g f xn gn st k ls, env'.progress cb (T x) (T g) f xn gn st k ls = env.progress cb x g f xn gn st k ls

section
variable {T : Vec n K → Vec n K}

theorem rot_vecadd (h : Rotation T) (y x : Vec n K) (c : K) : vecadd (T y) (T x) c = T (vecadd y x c) := by
  unfold vecadd
  rw [h.add, h.smul]

theorem rot_neg (h : Rotation T) (x : Vec n K) : (fun i => - T x i) = T (fun i => - x i) := by
  have := h.smul (-1) x
  simp only [neg_mul, one_mul] at this
  exact this.symm

theorem rot_sub (h : Rotation T) (x y : Vec n K) : (fun i => T x i - T y i) = T (fun i => x i - y i) := by
  simp only [sub_eq_add_neg]
  rw [h.add, ← rot_neg h]

theorem rot_scale (h : Rotation T) (x : Vec n K) (c : K) : (fun i => T x i * c) = T (fun i => x i * c) := by
  have := h.smul c x
  simp only [mul_comm c] at this
  exact this.symm

theorem rot_zero (h : Rotation T) : T (fun _ => 0) = fun _ => 0 := by
  have := h.smul 0 (fun _ => 0)
  simpa using this

theorem rot_vecdot (h : Rotation T) (x y : Vec n K) : vecdot (T x) (T y) = vecdot x y := by
  rw [vecdot_eq, vecdot_eq]; exact h.inner x y

theorem rot_norm (h : Rotation T) (sqrt : K → K) (x : Vec n K) : vec2norm sqrt (T x) = vec2norm sqrt x := by
  unfold vec2norm; rw [rot_vecdot h]

/-- The line search result in the changed variables. -/
def mapLs (T : Vec n K → Vec n K) (r : LsOut n K) : LsOut n K :=
  ⟨r.ret, T r.x, r.f, T r.g, r.step, r.trials.map T⟩

theorem btLoop_map {env env' : Env n σ K} {p : Par K} (hT : Rotation T) (he : EnvRel T env env') (xp s : Vec n K)
    (finit dginit : K) : ∀ (rem count : Nat) (stp : K) (tr : List (Vec n K)),
    btLoop env' p (T xp) (T s) finit dginit rem count stp (tr.map T) =
      mapLs T (btLoop env p xp s finit dginit rem count stp tr) := by
  intro rem
  induction rem with
  | zero => intros; rfl
  | succ rem ih =>
    intro count stp tr
    have h1 := ih (count + 1) (stp * const 1 2) (vecadd xp s stp :: tr)
    have h2 := ih (count + 1) (stp * const 21 10) (vecadd xp s stp :: tr)
    simp only [List.map_cons] at h1 h2
    simp only [btLoop, rot_vecadd hT, he.eval, rot_vecdot hT]
    split_ifs <;> first | rfl | exact h1 | exact h2

theorem backtracking_map {env env' : Env n σ K} {p : Par K} (hT : Rotation T) (he : EnvRel T env env') (x : Vec n K)
    (f : K) (g s : Vec n K) (stp : K) :
    backtracking env' p (T x) f (T g) (T s) stp = mapLs T (backtracking env p x f g s stp) := by
  have := btLoop_map (p := p) hT he x s f (vecdot g s) p.maxLinesearch.toNat 0 stp []
  simp only [backtracking, rot_vecdot hT]
  split_ifs <;> first | rfl | exact this

theorem owlqnLoop_map {env env' : Env n σ K} {p : Par K} (hT : Compat T p) (hc : p.c ≠ 0) (he : EnvRel T env env')
    (xp pg wp s : Vec n K) (finit : K) : ∀ (rem count : Nat) (stp : K) (tr : List (Vec n K)),
    owlqnLoop env' p (T xp) (T pg) (T wp) (T s) finit rem count stp (tr.map T) =
      mapLs T (owlqnLoop env p xp pg wp s finit rem count stp tr) := by
  intro rem
  induction rem with
  | zero => intros; rfl
  | succ rem ih =>
    intro count stp tr
    have h1 := ih (count + 1) (stp * const 1 2) (project (vecadd xp s stp) wp p.start p.stop :: tr)
    simp only [List.map_cons] at h1
    have h2 : ∀ x : Vec n K, (vsum fun i => (T x i - T xp i) * T pg i) = vsum fun i => (x i - xp i) * pg i := by
      intro x
      have h3 := rot_vecdot hT.rot (fun i => x i - xp i) pg
      rw [← rot_sub hT.rot] at h3
      exact h3
    simp only [owlqnLoop, rot_vecadd hT.rot, hT.proj hc, he.eval, hT.norm hc, h2]
    split_ifs <;> first | rfl | exact h1

theorem backtrackingOwlqn_map {env env' : Env n σ K} {p : Par K} (hT : Compat T p) (hc : p.c ≠ 0)
    (he : EnvRel T env env') (x : Vec n K) (f : K) (g pg s : Vec n K) (stp : K) :
    backtrackingOwlqn env' p (T x) f (T g) (T pg) (T s) stp = mapLs T (backtrackingOwlqn env p x f g pg s stp) := by
  have := owlqnLoop_map hT hc he x pg (fun i => if feq (x i) 0 then - pg i else x i) s f p.maxLinesearch.toNat 0 stp []
  simp only [backtrackingOwlqn, hT.orth hc]
  split_ifs <;> first | rfl | exact this

omit [Field K] [LinearOrder K] [IsStrictOrderedRing K] in
theorem ite_map {c : Prop} [Decidable c] {a b a' b' : LsOut n K} (ha : a' = mapLs T a) (hb : b' = mapLs T b) :
    (if c then a' else b') = mapLs T (if c then a else b) := by
  split_ifs <;> assumption

theorem mtLoop_map {env env' : Env n σ K} {p : Par K} (hT : Rotation T) (he : EnvRel T env env') (xp s : Vec n K)
    (finit dginit : K) : ∀ (rem count : Nat) (v : Interval K) (stage1 : Bool) (w pw : K) (u : Int)
    (tr : List (Vec n K)), mtLoop env' p (T xp) (T s) finit dginit rem count v stage1 w pw u (tr.map T) =
      mapLs T (mtLoop env p xp s finit dginit rem count v stage1 w pw u tr) := by
  obtain ⟨sq, ev, pr⟩ := env
  obtain ⟨sq', ev', pr'⟩ := env'
  have hsq : sq' = sq := he.sqrt
  have hev : ∀ x, ev' (T x) = ((ev x).1, T (ev x).2) := he.eval
  subst hsq
  intro rem
  induction rem with
  | zero => intros; rfl
  | succ rem ih =>
    intro count v stage1 w pw u tr
    rw [mtLoop, mtLoop]
    dsimp only
    generalize mtClip p v count u (mtBounds v).1 (mtBounds v).2 = stp
    have h2 := fun v s1 w pw u => ih (count + 1) v s1 w pw u (vecadd xp s stp :: tr)
    rw [List.map_cons] at h2
    rw [rot_vecadd hT, hev, rot_vecdot hT]
    dsimp only
    refine ite_map rfl (ite_map rfl (ite_map rfl (ite_map rfl (ite_map rfl (ite_map rfl ?_)))))
    exact h2 _ _ _ _ _

theorem moreThuente_map {env env' : Env n σ K} {p : Par K} (hT : Rotation T) (he : EnvRel T env env') (x : Vec n K)
    (f : K) (g s : Vec n K) (stp : K) :
    moreThuente env' p (T x) f (T g) (T s) stp = mapLs T (moreThuente env p x f g s stp) := by
  have := fun v s1 w pw u => mtLoop_map (p := p) hT he x s f (vecdot g s) p.maxLinesearch.toNat 0 v s1 w pw u []
  simp only [moreThuente, rot_vecdot hT]
  split_ifs <;> first | rfl | exact this _ _ _ _ _

/-- The slot in the changed variables. -/
def mapSlot (T : Vec n K → Vec n K) (s : Slot n K) : Slot n K := ⟨s.alpha, T s.s, T s.y, s.ys⟩

/-- The report in the changed variables. -/
def mapReport (T : Vec n K → Vec n K) (r : Report n K) : Report n K := { r with x := T r.x, g := T r.g }

/-- The state in the changed variables. -/
def mapSt (T : Vec n K → Vec n K) (s : St n σ K) : St n σ K :=
  { s with x := T s.x, g := T s.g, pg := T s.pg, d := T s.d, lm := s.lm.map (mapSlot T), trials := s.trials.map T
           reports := s.reports.map (mapReport T) }

/-- The outcome in the changed variables. -/
def mapOut (T : Vec n K → Vec n K) (o : Out n K) : Out n K :=
  ⟨o.ret, T o.x, o.trials.map T, o.reports.map (mapReport T)⟩

theorem getD_map (hT : Rotation T) (lm : List (Slot n K)) (j : Nat) :
    (lm.map (mapSlot T)).getD j Slot.empty = mapSlot T (lm.getD j Slot.empty) := by
  have h0 : (Slot.empty : Slot n K) = mapSlot T Slot.empty := by
    unfold mapSlot Slot.empty
    rw [rot_zero hT]
  conv_lhs => rw [h0]
  simp [List.getD_eq_getElem?_getD, List.getElem?_map, Option.getD_map]

theorem loop1_map (hT : Rotation T) (m : Nat) : ∀ (b j : Nat) (d : Vec n K) (lm : List (Slot n K)),
    loop1 m b j (T d) (lm.map (mapSlot T)) =
      ((loop1 m b j d lm).1, T (loop1 m b j d lm).2.1, (loop1 m b j d lm).2.2.map (mapSlot T)) := by
  intro b
  induction b with
  | zero => intros; rfl
  | succ b ih =>
    intro j d lm
    simp only [loop1, getD_map hT]
    have h1 : ∀ (q : Slot n K) (a : K), ({ mapSlot T q with alpha := a } : Slot n K) = mapSlot T { q with alpha := a } :=
      fun _ _ => rfl
    have h2 : ∀ q : Slot n K, (mapSlot T q).ys = q.ys := fun _ => rfl
    have h3 : ∀ q : Slot n K, (mapSlot T q).s = T q.s := fun _ => rfl
    have h4 : ∀ q : Slot n K, (mapSlot T q).y = T q.y := fun _ => rfl
    rw [h1, h2, h3, h4, ← List.map_set, rot_vecadd hT, rot_vecdot hT, ih]

theorem loop2_map (hT : Rotation T) (m : Nat) (lm : List (Slot n K)) : ∀ (b j : Nat) (d : Vec n K),
    loop2 m (lm.map (mapSlot T)) b j (T d) = T (loop2 m lm b j d) := by
  intro b
  induction b with
  | zero => intros; rfl
  | succ b ih =>
    intro j d
    simp only [loop2, getD_map hT]
    have h2 : ∀ q : Slot n K, (mapSlot T q).ys = q.ys := fun _ => rfl
    have h3 : ∀ q : Slot n K, (mapSlot T q).s = T q.s := fun _ => rfl
    have h4 : ∀ q : Slot n K, (mapSlot T q).y = T q.y := fun _ => rfl
    have h5 : ∀ q : Slot n K, (mapSlot T q).alpha = q.alpha := fun _ => rfl
    rw [h2, h3, h4, h5, rot_vecadd hT, rot_vecdot hT, ih]

theorem direction_map (hT : Rotation T) (m stop b : Nat) (gamma : K) (lm : List (Slot n K)) (q : Vec n K) :
    direction m stop b gamma (lm.map (mapSlot T)) (T q) =
      (T (direction m stop b gamma lm q).1, (direction m stop b gamma lm q).2.map (mapSlot T)) := by
  simp only [direction, loop1_map hT, rot_scale hT, loop2_map hT]

theorem lineSearch_map {env env' : Env n σ K} {p : Par K} (hT : Compat T p) (he : EnvRel T env env') (s : St n σ K) :
    lineSearch env' p (mapSt T s) = mapLs T (lineSearch env p s) := by
  simp only [lineSearch]
  by_cases hc : p.c = 0
  · rw [if_pos (feq_iff.2 hc), if_pos (feq_iff.2 hc)]
    split_ifs
    · exact moreThuente_map hT.rot he _ _ _ _ _
    · exact backtracking_map hT.rot he _ _ _ _ _
  · rw [if_neg (fun h => hc (feq_iff.1 h)), if_neg (fun h => hc (feq_iff.1 h))]
    exact backtrackingOwlqn_map hT hc he _ _ _ _ _ _

theorem effGrad_map {p : Par K} (g pg : Vec n K) : effGrad p (T g) (T pg) = T (effGrad p g pg) := by
  unfold effGrad; split_ifs <;> rfl

theorem newPg_map {p : Par K} (hT : Compat T p) (s : St n σ K) (r : LsOut n K) :
    newPg p (mapSt T s) (mapLs T r) = T (newPg p s r) := by
  unfold newPg
  split_ifs with h
  · rfl
  · exact hT.pg (fun h2 => h (feq_iff.2 h2)) _ _

theorem storeLm_map (hT : Rotation T) (s : St n σ K) (r : LsOut n K) :
    storeLm (mapSt T s) (mapLs T r) = (storeLm s r).map (mapSlot T) := by
  simp only [storeLm]
  show (s.lm.map (mapSlot T)).set s.stop _ = _
  rw [List.map_set]
  congr 1
  show (⟨((s.lm.map (mapSlot T)).getD s.stop Slot.empty).alpha, fun i => T r.x i - T s.x i, fun i => T r.g i - T s.g i,
    vecdot (fun i => T r.g i - T s.g i) fun i => T r.x i - T s.x i⟩ : Slot n K) = _
  rw [getD_map hT, rot_sub hT, rot_sub hT, rot_vecdot hT]
  rfl

theorem scaling_map (hT : Rotation T) (s : St n σ K) (r : LsOut n K) :
    scaling (mapSt T s) (mapLs T r) = scaling s r := by
  simp only [scaling]
  show vecdot (fun i => T r.g i - T s.g i) (fun i => T r.x i - T s.x i) /
    vecdot (fun i => T r.g i - T s.g i) (fun i => T r.g i - T s.g i) = _
  rw [rot_sub hT, rot_sub hT, rot_vecdot hT, rot_vecdot hT]

theorem newDirection_map {p : Par K} (hT : Compat T p) (s : St n σ K) (r : LsOut n K) (pg : Vec n K) :
    newDirection p (mapSt T s) (mapLs T r) (T pg) =
      (T (newDirection p s r pg).1, (newDirection p s r pg).2.map (mapSlot T)) := by
  unfold newDirection
  rw [scaling_map hT.rot, storeLm_map hT.rot]
  have : (fun i => - effGrad p (mapLs T r).g (T pg) i) = T (fun i => - effGrad p r.g pg i) := by
    show (fun i => - effGrad p (T r.g) (T pg) i) = _
    rw [effGrad_map, rot_neg hT.rot]
  rw [this]
  exact direction_map hT.rot _ _ _ _ _ _

theorem update_map {p : Par K} (hT : Compat T p) (s : St n σ K) (r : LsOut n K) (pg : Vec n K) (pf : List K) (cb : σ)
    (reports : List (Report n K)) :
    update p (mapSt T s) (mapLs T r) (T pg) pf cb (reports.map (mapReport T)) = mapSt T (update p s r pg pf cb reports) := by
  unfold update
  rw [newDirection_map hT]
  have hd : (if feq p.c 0 then T (newDirection p s r pg).1 else constrain (T (newDirection p s r pg).1) (T pg) p.start p.stop)
      = T (if feq p.c 0 then (newDirection p s r pg).1 else constrain (newDirection p s r pg).1 pg p.start p.stop) := by
    split_ifs with h
    · rfl
    · exact hT.con (fun h2 => h (feq_iff.2 h2)) _ _
  simp only [hd]
  simp [mapSt, mapLs, List.map_append]

theorem iterate_map {env env' : Env n σ K} {p : Par K} (hT : Compat T p) (he : EnvRel T env env') (s : St n σ K) :
    iterate env' p (mapSt T s) = (iterate env p s).map (mapSt T) (mapOut T) := by
  unfold iterate
  simp only [lineSearch_map hT he, newPg_map hT]
  have e1 : ∀ r : LsOut n K, (mapLs T r).ret = r.ret := fun _ => rfl
  have e2 : ∀ r : LsOut n K, (mapLs T r).x = T r.x := fun _ => rfl
  have e3 : ∀ r : LsOut n K, (mapLs T r).g = T r.g := fun _ => rfl
  have e4 : ∀ r : LsOut n K, (mapLs T r).f = r.f := fun _ => rfl
  have e5 : ∀ r : LsOut n K, (mapLs T r).step = r.step := fun _ => rfl
  have e6 : ∀ r : LsOut n K, (mapLs T r).trials = r.trials.map T := fun _ => rfl
  have e7 : (mapSt T s).cb = s.cb := rfl
  have e8 : (mapSt T s).k = s.k := rfl
  have e9 : (mapSt T s).trials = s.trials.map T := rfl
  have e10 : (mapSt T s).reports = s.reports.map (mapReport T) := rfl
  have e11 : (mapSt T s).x = T s.x := rfl
  have e12 : ∀ f, deltaStop p (mapSt T s) f ↔ deltaStop p s f := fun _ => Iff.rfl
  have e13 : ∀ f, newPf p (mapSt T s) f = newPf p s f := fun _ => rfl
  have e14 : ∀ (x g : Vec n K) (fx xn gn st : K) (k : Nat) (ls : Int) (l : List (Report n K)),
      (⟨T x, T g, fx, xn, gn, st, k, ls⟩ :: l.map (mapReport T) : List (Report n K)) =
        (⟨x, g, fx, xn, gn, st, k, ls⟩ :: l).map (mapReport T) := fun _ _ _ _ _ _ _ _ _ => rfl
  simp only [e1, e2, e3, e4, e5, e6, e7, e8, e9, e10, e11, e12, e13, effGrad_map, rot_norm hT.rot, he.sqrt, he.progress,
    e14, update_map hT]
  split_ifs <;> simp [Sum.map, mapOut]

theorem start_map {env env' : Env n σ K} {p : Par K} (hT : Compat T p) (he : EnvRel T env env') (x0 : Vec n K) (cb : σ) :
    start env' p (T x0) cb = mapSt T (start env p x0 cb) := by
  unfold start
  simp only [he.eval, he.sqrt]
  have h1 : (if feq p.c 0 then (env.eval x0).1 else (env.eval x0).1 + x1norm (T x0) p.start p.stop * p.c) =
      if feq p.c 0 then (env.eval x0).1 else (env.eval x0).1 + x1norm x0 p.start p.stop * p.c := by
    split_ifs with h
    · rfl
    · rw [hT.norm (fun h2 => h (feq_iff.2 h2))]
  have h2 : (if feq p.c 0 then (fun _ => 0) else pseudoGradient (T x0) (T (env.eval x0).2) p.c p.start p.stop) =
      T (if feq p.c 0 then (fun _ => 0) else pseudoGradient x0 (env.eval x0).2 p.c p.start p.stop) := by
    split_ifs with h
    · rw [rot_zero hT.rot]
    · exact hT.pg (fun h2 => h (feq_iff.2 h2)) _ _
  have h3 : ∀ q : Vec n K, (fun i => - effGrad p (T (env.eval x0).2) (T q) i) =
      T (fun i => - effGrad p (env.eval x0).2 q i) := by
    intro q; rw [effGrad_map, rot_neg hT.rot]
  have h4 : (Slot.empty : Slot n K) = mapSlot T Slot.empty := by
    unfold mapSlot Slot.empty
    rw [rot_zero hT.rot]
  rw [h1, h2, h3, rot_norm hT.rot]
  simp only [mapSt, List.map_replicate, ← h4, List.map_cons, List.map_nil]

theorem already_map {env env' : Env n σ K} {p : Par K} (hT : Compat T p) (he : EnvRel T env env') (s : St n σ K) :
    already env' p (mapSt T s) ↔ already env p s := by
  unfold already
  show converged p (vec2norm env'.sqrt (T s.x)) (vec2norm env'.sqrt (effGrad p (T s.g) (T s.pg))) ↔ _
  rw [effGrad_map, rot_norm hT.rot, rot_norm hT.rot, he.sqrt]

theorem run_map {env env' : Env n σ K} {p : Par K} (hT : Compat T p) (he : EnvRel T env env') {s : St n σ K} {o : Out n K}
    (h : Run env p s o) : Run env' p (mapSt T s) (mapOut T o) := by
  induction h with
  | done h => exact .done (by rw [iterate_map hT he, h]; rfl)
  | next h _ ih => exact .next (by rw [iterate_map hT he, h]; rfl) ih

theorem lbfgs_map {env env' : Env n σ K} {p : Par K} (hT : Compat T (fillEnd n p)) (he : EnvRel T env env') {x0 : Vec n K}
    {cb : σ} {o : Out n K} (h : Lbfgs env p x0 cb o) : Lbfgs env' p (T x0) cb (mapOut T o) := by
  cases h with
  | rejected h => exact .rejected h
  | already h ha => exact .already h (by rw [start_map hT he, already_map hT he]; exact ha)
  | run h ha hr => exact .run h (by rw [start_map hT he, already_map hT he]; exact ha) (by
      rw [start_map hT he]; exact run_map hT he hr)

theorem run_unmap {env env' : Env n σ K} {p : Par K} (hT : Compat T p) (he : EnvRel T env env') {t : St n σ K}
    {o' : Out n K} (h : Run env' p t o') : ∀ s, t = mapSt T s → ∃ o, Run env p s o ∧ o' = mapOut T o := by
  induction h with
  | done h =>
    intro s hs
    rw [hs, iterate_map hT he] at h
    cases hi : iterate env p s with
    | inl s' => rw [hi] at h; cases h
    | inr o => rw [hi] at h; cases h; exact ⟨o, .done hi, rfl⟩
  | next h _ ih =>
    intro s hs
    rw [hs, iterate_map hT he] at h
    cases hi : iterate env p s with
    | inl s' =>
      rw [hi] at h
      cases h
      obtain ⟨o, ho, e⟩ := ih s' rfl
      exact ⟨o, .next hi ho, e⟩
    | inr o => rw [hi] at h; cases h

theorem lbfgs_unmap {env env' : Env n σ K} {p : Par K} (hT : Compat T (fillEnd n p)) (he : EnvRel T env env')
    {x0 : Vec n K} {cb : σ} {o' : Out n K} (h : Lbfgs env' p (T x0) cb o') :
    ∃ o, Lbfgs env p x0 cb o ∧ o' = mapOut T o := by
  cases h with
  | rejected h => exact ⟨_, .rejected h, rfl⟩
  | already h ha => exact ⟨_, .already h (by rw [start_map hT he, already_map hT he] at ha; exact ha), rfl⟩
  | run h ha hr =>
    rw [start_map hT he] at hr
    obtain ⟨o, ho, e⟩ := run_unmap hT he hr _ rfl
    exact ⟨o, .run h (by rw [start_map hT he, already_map hT he] at ha; exact ha) ho, e⟩

theorem finish_map (o : Out n K) : finish (mapOut T o) = changed T (finish o) := by
  unfold finish
  have e : (mapOut T o).ret = o.ret := rfl
  rw [e]
  by_cases h1 : o.ret = wcode "LBFGS_SUCCESS" ∨ o.ret = wcode "LBFGS_ALREADY_MINIMIZED"
  · simp only [if_pos h1]; rfl
  simp only [if_neg h1]
  by_cases h2 : o.ret = wcode "LBFGSERR_ROUNDING_ERROR" ∨ o.ret = wcode "LBFGSERR_MAXIMUMLINESEARCH" ∨
      o.ret = wcode "LBFGSERR_MAXIMUMITERATION"
  · simp only [if_pos h2]
    cases message o.ret <;> rfl
  simp only [if_neg h2]
  by_cases h3 : o.ret = wcode "LBFGSERR_OUTOFMEMORY"
  · simp only [if_pos h3]; rfl
  simp only [if_neg h3]
  by_cases h4 : o.ret = wcode "LBFGS_ALLZERO"
  · simp only [if_pos h4]; rfl
  simp only [if_neg h4]
  cases message o.ret <;> rfl

theorem env_rel {c c' : Callables n σ K} (h : SameProblem T c c') : EnvRel T c.env c'.env := by
  refine ⟨h.sqrt, fun x => ?_, fun cb x g f xn gn st k ls => ?_⟩
  · simp only [Callables.env, h.f]
  · simp only [Callables.env, h.progress]

omit [IsStrictOrderedRing K] in
theorem fminPar_form {a : Args K} {p : Par K} (h : fminPar a = .ok p) :
    0 ≤ a.par.c ∧ ∃ ls, p = { a.par with linesearch := ls } := by
  unfold fminPar at h
  split_ifs at h with h1
  split at h
  · cases h
  · cases h; exact ⟨h1, _, rfl⟩

theorem fmin_map {c c' : Callables n σ K} (h : SameProblem T c c') {a : Args K}
    (hT : ∀ p, fminPar a = .ok p → Compat T (fillEnd n p)) {x0 : Vec n K} {cb : σ} {res : Res n K} {tr : List (Vec n K)}
    (hf : Fmin c a x0 cb res tr) : Fmin c' a (T x0) cb (changed T res) (tr.map T) := by
  cases hf with
  | bad h => exact .bad h
  | @run p o hp ho =>
    rw [← finish_map]
    exact .run hp (lbfgs_map (hT p hp) (env_rel h) ho)

theorem fmin_unmap {c c' : Callables n σ K} (h : SameProblem T c c') {a : Args K}
    (hT : ∀ p, fminPar a = .ok p → Compat T (fillEnd n p)) {x0 : Vec n K} {cb : σ} {res : Res n K} {tr : List (Vec n K)}
    (hf : Fmin c' a (T x0) cb res tr) : ∃ res0 tr0, Fmin c a x0 cb res0 tr0 ∧ res = changed T res0 ∧ tr = tr0.map T := by
  cases hf with
  | bad h => exact ⟨_, _, .bad h, rfl, rfl⟩
  | @run p o hp ho =>
    obtain ⟨o0, h0, e⟩ := lbfgs_unmap (hT p hp) (env_rel h) ho
    refine ⟨_, _, .run hp h0, ?_, ?_⟩
    · rw [e, finish_map]
    · rw [e]; rfl

end

theorem reorder_rotation (π : Equiv.Perm (Fin n)) (sign : Fin n → K) (hs : ∀ i, sign i = 1 ∨ sign i = -1) :
    Rotation (reorder π sign) := by
  refine ⟨fun x y => ?_, fun a x => ?_, fun x y => ?_⟩
  · funext i; simp only [reorder]; ring
  · funext i; simp only [reorder]; ring
  · rw [← Equiv.sum_comp π (fun i => x i * y i)]
    refine sum_congr rfl fun i _ => ?_
    simp only [reorder]
    rcases hs i with h | h <;> rw [h] <;> ring

theorem reorder_compat (π : Equiv.Perm (Fin n)) (sign : Fin n → K) (hs : ∀ i, sign i = 1 ∨ sign i = -1) (p : Par K)
    (hc : 0 ≤ p.c) (hr : p.c ≠ 0 → ∀ i, Penalised p.start p.stop i ↔ Penalised p.start p.stop (π i)) :
    Compat (reorder π sign) p := by
  refine ⟨reorder_rotation π sign hs, fun h0 x => ?_, fun h0 x g => ?_, fun h0 d w => ?_, fun h0 d g => ?_,
    fun h0 x g => ?_⟩
  · rw [x1norm_eq, x1norm_eq]
    unfold l1
    rw [sum_filter, sum_filter, ← Equiv.sum_comp π (fun i => if Penalised p.start p.stop i then |x i| else 0)]
    refine sum_congr rfl fun i _ => ?_
    simp only [← hr h0 i, reorder]
    rcases hs i with h | h <;> rw [h] <;> simp
  · funext i
    have hi := hr h0 i
    simp only [pseudoGradient, reorder]
    change (if Penalised p.start p.stop i then _ else _) = sign i * (if Penalised p.start p.stop (π i) then _ else _)
    rw [← if_congr hi rfl rfl]
    have hc' : 0 < p.c := lt_of_le_of_ne hc (Ne.symm h0)
    by_cases hp : Penalised p.start p.stop i
    · rw [if_pos hp, if_pos hp]
      rcases hs i with h | h
      · simp only [h, one_mul]
      · simp only [h, neg_mul, one_mul]
        split_ifs <;> first | rfl | ring1 | (exfalso; linarith)
    · rw [if_neg hp, if_neg hp]
  · funext i
    have hi := hr h0 i
    simp only [project, reorder]
    change (if Penalised p.start p.stop i then _ else _) = sign i * (if Penalised p.start p.stop (π i) then _ else _)
    rw [← if_congr hi rfl rfl]
    have e : sign i * d (π i) * (sign i * w (π i)) = d (π i) * w (π i) := by
      rcases hs i with h | h <;> rw [h] <;> ring
    simp only [e]
    split_ifs <;> simp
  · funext i
    have hi := hr h0 i
    simp only [constrain, reorder]
    change (if Penalised p.start p.stop i then _ else _) = sign i * (if Penalised p.start p.stop (π i) then _ else _)
    rw [← if_congr hi rfl rfl]
    have e : sign i * d (π i) * (sign i * g (π i)) = d (π i) * g (π i) := by
      rcases hs i with h | h <;> rw [h] <;> ring
    simp only [e]
    split_ifs <;> simp
  · funext i
    simp only [reorder, feq_iff]
    rcases hs i with h | h <;> rw [h] <;> simp [neg_eq_zero]

end Verif.Lbfgs
