import Verif.Model.Fit
import Verif.Lemmas.Mpi
import Verif.Lemmas.ArraySplit
import Verif.Lemmas.Intersection
import Mathlib.Data.List.Forall2
/-! Helper lemmas about the model of `fit`. -/
namespace Verif.Py

variable {α β : Type}

theorem mapE_ok_iff {f : α → Except PyErr β} {xs : List α} {ys : List β} :
    mapE f xs = .ok ys ↔ List.Forall₂ (fun x y => f x = .ok y) xs ys := by
  induction xs generalizing ys with
  | nil =>
    simp only [mapE, Except.ok.injEq, List.forall₂_nil_left_iff]
    exact eq_comm
  | cons x xs ih =>
    simp only [mapE, List.forall₂_cons_left_iff]
    cases hf : f x with
    | error e => simp
    | ok b =>
      cases hm : mapE f xs with
      | error e =>
        simp only [reduceCtorEq, Except.ok.injEq, false_iff, not_exists, not_and]
        intro y ys' _ h2
        rw [(ih.2 h2)] at hm; cases hm
      | ok bs =>
        simp only [Except.ok.injEq]
        constructor
        · rintro rfl; exact ⟨b, bs, rfl, ih.1 hm, rfl⟩
        · rintro ⟨y, ys', rfl, h2, rfl⟩
          rw [ih.2 h2] at hm; injection hm with hm; rw [hm]

theorem mapE_congr {f g : α → Except PyErr β} {xs : List α} (h : ∀ x ∈ xs, f x = g x) :
    mapE f xs = mapE g xs := by
  induction xs with
  | nil => rfl
  | cons x xs ih =>
    simp only [mapE, h x List.mem_cons_self,
      ih fun y hy => h y (List.mem_cons_of_mem _ hy)]

theorem mapE_splitPart {f : α → Except PyErr β} {xs : List α} {ys : List β}
    (h : mapE f xs = .ok ys) (k i : Nat) :
    mapE f (splitPart xs k i) = .ok (splitPart ys k i) := by
  rw [mapE_ok_iff] at h ⊢
  unfold splitPart
  rw [h.length_eq]
  exact List.forall₂_take _ (List.forall₂_drop _ h)

theorem forall₂_splitPart {R : α → β → Prop} {xs : List α} {ys : List β}
    (h : List.Forall₂ R xs ys) (k i : Nat) :
    List.Forall₂ R (splitPart xs k i) (splitPart ys k i) := by
  unfold splitPart
  rw [h.length_eq]
  exact List.forall₂_take _ (List.forall₂_drop _ h)

theorem Prog.lift_bind_ret {K : Type} {x : Except PyErr α} {f : α → Prog K β} {b : β}
    (h : Prog.lift x >>= f = .ret b) : ∃ a, x = .ok a ∧ f a = .ret b := by
  cases x with
  | ok a => exact ⟨a, rfl, h⟩
  | error e => cases h

theorem Prog.lift_eq_ret {K : Type} {x : Except PyErr α} {b : α}
    (h : (Prog.lift x : Prog K α) = .ret b) : x = .ok b := by
  cases x with
  | ok a => simp [Prog.lift] at h; rw [h]
  | error e => cases h

theorem except_bind_ok {x : Except PyErr α} {f : α → Except PyErr β} {b : β}
    (h : x >>= f = .ok b) : ∃ a, x = .ok a ∧ f a = .ok b := by
  cases x with
  | ok a => exact ⟨a, rfl, h⟩
  | error e => cases h

theorem sum_length_splitPart (ys : List β) (n : Nat) (hn : 0 < n) :
    (List.ofFn fun r : Fin n => (splitPart ys n r).length).sum = ys.length := by
  have h := congrArg List.length (flatten_splitPart ys n hn)
  rw [List.length_flatten, List.map_ofFn] at h
  exact h

theorem flatMap_splitPart {γ : Type} (ys : List β) (h : β → List γ) (n : Nat) (hn : 0 < n) :
    (List.ofFn fun r : Fin n => (splitPart ys n r).flatMap h).flatten = ys.flatMap h := by
  conv_rhs => rw [← flatten_splitPart ys n hn]
  rw [List.flatMap_def, List.map_flatten, List.flatten_flatten, List.map_ofFn, List.map_ofFn]
  rfl

end Verif.Py

namespace Verif.Fit
open Verif.Py Verif.MpiUtils Verif.Intersection

variable {K G S M RP : Type} {n : Nat}

/-- The reset between bootstraps makes the solver forget what it was fitted on before. -/
def Forgets (env : Env K G S M RP) : Prop :=
  ∀ s t rp tr, env.fitSel (env.reset s) rp tr = env.fitSel (env.reset t) rp tr

/-- The solver does not depend on what it was fitted on before, reset or not. -/
def HistoryFree (env : Env K G S M RP) : Prop :=
  ∀ s t rp tr, env.fitSel s rp tr = env.fitSel t rp tr

/-- The fitted intercept is an array that can be broadcast. -/
def GoodIntercept (env : Env K G S M RP) : Prop :=
  ∀ c a, env.fitIntercept c = .ok a → a.WF ∧ Supported a.dtype ∧ a.shape ≠ []

/-! ### Drawing the splits -/

/-- The splits drawn by the serial fit. -/
def drawList (env : Env K G S M RP) (est : Bool) : Nat → G → Except PyErr (List Split × G)
  | 0, g => .ok ([], g)
  | k + 1, g =>
    match env.draw est g with
    | .error e => .error e
    | .ok p =>
      match drawList env est k p.2 with
      | .error e => .error e
      | .ok q => .ok (p.1 :: q.1, q.2)

theorem drawBoots_serial (env : Env K G S M RP) (rank : Nat) (est : Bool) (k : Nat) (g : G) :
    drawBoots env 1 rank est k g = Prog.lift (drawList env est k g) := by
  induction k generalizing g with
  | zero => rfl
  | succ k ih =>
    simp only [drawBoots, drawList, Nat.lt_irrefl, if_false, gt_iff_lt]
    cases hd : env.draw est g with
    | error e => rfl
    | ok p =>
      change (drawBoots env 1 rank est k p.2 >>= fun q => Prog.ret (p.1 :: q.1, q.2)) = _
      rw [ih]
      simp only
      cases hl : drawList env est k p.2 with
      | error e => rfl
      | ok q => rfl

theorem toNats_ofNats (xs : List Nat) : (NDArr.ofNats xs : NDArr K).toNats = xs := by
  induction xs with
  | nil => rfl
  | cons x xs ih =>
    simp only [NDArr.ofNats, NDArr.toNats, List.map_cons] at ih ⊢
    rw [ih]; simp

theorem ofNats_wf (xs : List Nat) : (NDArr.ofNats xs : NDArr K).WF := by
  simp [NDArr.WF, NDArr.ofNats, shapeSize]

/-- `Bcast_from_root` of something only rank 0 has. -/
theorem runs_bcastOwn {α : Type} (hn : 0 < n) (own : Fin n → Option α) (x : α) (f : α → NDArr K)
    (h0 : own ⟨0, hn⟩ = some x) (hx : ∀ r, r.val ≠ 0 → own r = none)
    (hwf : (f x).WF) (hsup : Supported (f x).dtype) (hs : (f x).shape ≠ []) :
    Runs (fun r => bcastFromRoot r.val 0 ((own r).elim .none fun q => .arr (f q)))
      (fun _ : Fin n => .ok (f x)) := by
  have := runs_bcastFromRoot hn (fun r => (own r).elim .none fun q => .arr (f q)) (f x)
    (by simp [h0]) (fun r hr => .inl (by simp [hx r hr])) (np2mpi_of_supported hsup) hwf
  rwa [ascontiguous_of_ne hs] at this

theorem runs_drawBoots (hn : 1 < n) (env : Env K G S M RP) (est : Bool) (k : Nat)
    (g : Fin n → G) (boots : List Split) (g' : G)
    (h : drawList env est k (g ⟨0, by omega⟩) = .ok (boots, g')) :
    Runs (fun r : Fin n => drawBoots env n r.val est k (g r))
      (fun r => .ok (boots, if r.val = 0 then g' else g r)) := by
  have hn0 : 0 < n := by omega
  induction k generalizing g boots with
  | zero =>
    simp only [drawList, Except.ok.injEq, Prod.mk.injEq] at h
    refine (Runs.ret _).of_eq fun r => ?_
    by_cases hr : r.val = 0
    · have : r = ⟨0, hn0⟩ := Fin.ext hr
      subst this
      simp [drawBoots, ← h.1, ← h.2]
    · simp [drawBoots, ← h.1, hr]
  | succ k ih =>
    simp only [drawList] at h
    cases hd : env.draw est (g ⟨0, hn0⟩) with
    | error e => rw [hd] at h; cases h
    | ok p =>
      rw [hd] at h
      simp only at h
      cases hl : drawList env est k p.2 with
      | error e => rw [hl] at h; cases h
      | ok q =>
        rw [hl] at h
        simp only [Except.ok.injEq, Prod.mk.injEq] at h
        obtain ⟨hb, hg⟩ := h
        simp only [drawBoots, gt_iff_lt, hn, if_true]
        refine Runs.bind (v := fun r => (p.1, if r.val = 0 then p.2 else g r)) ?_ ?_
        · refine Runs.bind (v := fun r => if r.val = 0 then some p else none) ?_ ?_
          · refine (Runs.ret _).of_eq fun r => ?_
            by_cases hr : r.val = 0
            · have : r = ⟨0, hn0⟩ := Fin.ext hr
              subst this
              simp only [if_true, hd]
              rfl
            · simp [hr]
          refine Runs.bind (runs_bcastOwn hn0 _ p (fun q => NDArr.ofNats q.1.train) (by simp)
            (fun r hr => by simp [hr]) (ofNats_wf _) (by simp [NDArr.ofNats, Supported])
            (by simp [NDArr.ofNats])) ?_
          refine Runs.bind (runs_bcastOwn hn0 _ p (fun q => NDArr.ofNats q.1.test) (by simp)
            (fun r hr => by simp [hr]) (ofNats_wf _) (by simp [NDArr.ofNats, Supported])
            (by simp [NDArr.ofNats])) ?_
          refine (Runs.ret _).of_eq fun r => ?_
          by_cases hr : r.val = 0 <;> simp [hr, toNats_ofNats]
        refine Runs.bind (v := fun r => (q.1, if r.val = 0 then q.2 else g r)) ?_ ?_
        · have := ih (fun r => if r.val = 0 then p.2 else g r) q.1 (by simp [hl, ← hg])
          refine cast ?_ this
          congr 1
          funext r
          by_cases hr : r.val = 0 <;> simp [hr, hg]
        · refine (Runs.ret _).of_eq fun r => ?_
          by_cases hr : r.val = 0 <;> simp [hr, hb, hg]

/-! ### Selection -/

theorem assignRow_length {m : Nat} {xs row : List K} (h : assignRow m xs = .ok row) :
    row.length = m := by
  unfold assignRow at h
  split at h
  · rename_i hl; injection h with h; rw [← h, hl]
  · split at h
    · injection h with h; rw [← h]; simp
    · cases h

/-- A sweep started from a reset solver. -/
theorem sweep_forgets {env : Env K G S M RP} (hF : Forgets env) {s : S} {regs : List RP}
    {train : List Nat} {rows : List (List K)} {s' : S}
    (h : sweep env (env.reset s) regs train = .ok (rows, s')) (t : S) :
    ∃ t', sweep env (env.reset t) regs train = .ok (rows, t') := by
  cases regs with
  | nil =>
    simp only [sweep, Except.ok.injEq, Prod.mk.injEq] at h ⊢
    exact ⟨_, h.1, rfl⟩
  | cons rp regs =>
    simp only [sweep] at h ⊢
    rw [hF t s]
    exact ⟨s', h⟩

theorem sweep_rows {env : Env K G S M RP} {s : S} {regs : List RP} {train : List Nat}
    {rows : List (List K)} {s' : S} (h : sweep env s regs train = .ok (rows, s')) :
    rows.length = regs.length ∧ ∀ r ∈ rows, r.length = env.nCoef := by
  induction regs generalizing s rows with
  | nil =>
    simp only [sweep, Except.ok.injEq, Prod.mk.injEq] at h
    rw [← h.1]; simp
  | cons rp regs ih =>
    simp only [sweep] at h
    cases h1 : env.fitSel s rp train with
    | error e => rw [h1] at h; cases h
    | ok s1 =>
      rw [h1] at h; simp only at h
      cases h2 : assignRow env.nCoef (env.selCoef s1) with
      | error e => rw [h2] at h; cases h
      | ok row =>
        rw [h2] at h; simp only at h
        cases h3 : sweep env s1 regs train with
        | error e => rw [h3] at h; cases h
        | ok p =>
          obtain ⟨rs, s2⟩ := p
          rw [h3] at h
          simp only [Except.ok.injEq, Prod.mk.injEq] at h
          obtain ⟨rfl, rfl⟩ := h
          obtain ⟨hl, hr⟩ := ih h3
          refine ⟨by simp [hl], ?_⟩
          intro r hm
          rcases List.mem_cons.1 hm with rfl | hm
          · exact assignRow_length h2
          · exact hr r hm

/-- What a selection task yields when it is started from any reset solver. -/
def SelTask (env : Env K G S M RP) (size : Nat) (boots : List Split) (t : Nat) (row : List K) :
    Prop :=
  ∃ regs sp rows, env.selRegs size t = .ok regs ∧ boots[env.selBoot size t]? = some sp ∧
    (∀ s, ∃ s', sweep env (env.reset s) regs sp.train = .ok (rows, s')) ∧
    assignSel env size rows = .ok row

/-- Tasks are whole bootstraps in ascending order, all after `cur`. -/
def After (cur : Option Nat) (tasks : List Nat) : Prop :=
  tasks.Pairwise (· < ·) ∧ ∀ c, cur = some c → ∀ t ∈ tasks, c < t

theorem After.tail {cur : Option Nat} {t : Nat} {ts : List Nat} (h : After cur (t :: ts)) :
    After (some t) ts := by
  refine ⟨(List.pairwise_cons.1 h.1).2, ?_⟩
  rintro c hc u hu
  injection hc with hc; subst hc
  exact (List.pairwise_cons.1 h.1).1 u hu

theorem After.ne {cur : Option Nat} {t : Nat} {ts : List Nat} (h : After cur (t :: ts)) :
    cur ≠ some t := by
  intro hc
  exact Nat.lt_irrefl _ (h.2 t hc t List.mem_cons_self)

theorem lookup_ok {keys : List Nat} {boots : List Split} {b : Nat} {sp : Split}
    (h : lookup keys boots b = .ok sp) : boots[b]? = some sp := by
  unfold lookup at h
  split at h
  · cases hb : boots[b]? with
    | none => rw [hb] at h; cases h
    | some x => rw [hb] at h; injection h with h; rw [h]
  · cases h

theorem lookup_of_mem {keys : List Nat} {boots : List Split} {b : Nat} {sp : Split}
    (hk : b ∈ keys) (h : boots[b]? = some sp) : lookup keys boots b = .ok sp := by
  simp [lookup, hk, h]

theorem selLoop_tasks {env : Env K G S M RP} (hF : Forgets env) {size : Nat}
    (hc : env.fine size = false) {keys : List Nat} {boots : List Split} {tasks : List Nat}
    {cur : Option Nat} {s : S} {rows : List (List K)} (ha : After cur tasks)
    (h : selLoop env size keys boots tasks cur s = .ok rows) :
    List.Forall₂ (SelTask env size boots) tasks rows := by
  induction tasks generalizing cur s rows with
  | nil => simp only [selLoop, Except.ok.injEq] at h; subst h; exact .nil
  | cons t ts ih =>
    have hb : env.selBoot size t = t := by simp [Env.selBoot, hc]
    have hcur : cur ≠ some t := ha.ne
    simp only [selLoop, hb] at h
    cases h1 : env.selRegs size t with
    | error e => rw [h1] at h; cases h
    | ok regs =>
      rw [h1] at h; simp only [if_pos hcur] at h
      cases h2 : lookup keys boots t with
      | error e => rw [h2] at h; cases h
      | ok sp =>
        rw [h2] at h; simp only at h
        cases h3 : sweep env (env.reset s) regs sp.train with
        | error e => rw [h3] at h; cases h
        | ok p =>
          obtain ⟨rs, s'⟩ := p
          rw [h3] at h; simp only at h
          cases h4 : assignSel env size rs with
          | error e => rw [h4] at h; cases h
          | ok row =>
            rw [h4] at h; simp only at h
            cases h5 : selLoop env size keys boots ts (some t) s' with
            | error e => rw [h5] at h; cases h
            | ok rest =>
              rw [h5] at h; injection h with h; subst h
              refine .cons ⟨regs, sp, rs, h1, ?_, sweep_forgets hF h3, h4⟩ (ih ha.tail h5)
              rw [hb]; exact lookup_ok h2

theorem selLoop_of_tasks {env : Env K G S M RP} {size : Nat}
    (hc : env.fine size = false) {keys : List Nat} {boots : List Split} {tasks : List Nat}
    {cur : Option Nat} (s : S) {rows : List (List K)} (ha : After cur tasks)
    (hk : ∀ t ∈ tasks, t ∈ keys) (h : List.Forall₂ (SelTask env size boots) tasks rows) :
    selLoop env size keys boots tasks cur s = .ok rows := by
  induction h generalizing cur s with
  | nil => rfl
  | @cons t row ts rest ht _ ih =>
    have hb : env.selBoot size t = t := by simp [Env.selBoot, hc]
    have hcur : cur ≠ some t := ha.ne
    obtain ⟨regs, sp, rs, h1, h2, h3, h4⟩ := ht
    obtain ⟨s', h3⟩ := h3 s
    rw [hb] at h2
    simp only [selLoop, hb, h1, if_pos hcur, lookup_of_mem (hk t List.mem_cons_self) h2, h3, h4,
      ih s' ha.tail fun u hu => hk u (List.mem_cons_of_mem _ hu)]

theorem flatten_length_of {rows : List (List K)} {m : Nat} (h : ∀ r ∈ rows, r.length = m) :
    rows.flatten.length = rows.length * m := flatten_length_uniform h

/-- The length of what a task contributes. -/
def Env.selWidth (env : Env K G S M RP) (size : Nat) : Nat :=
  if env.fine size then env.nCoef else env.nReg * env.nCoef

theorem SelTask.length {env : Env K G S M RP} [Inhabited S] {size : Nat} {boots : List Split}
    {t : Nat} {row : List K} (h : SelTask env size boots t row) :
    row.length = env.selWidth size := by
  obtain ⟨regs, sp, rows, h1, _, h3, h4⟩ := h
  obtain ⟨s', h3⟩ := h3 default
  obtain ⟨hl, hr⟩ := sweep_rows h3
  unfold assignSel at h4
  split at h4
  · cases h4
  · injection h4 with h4
    subst h4
    rw [flatten_length_of hr, hl]
    unfold Env.selRegs at h1
    unfold Env.selWidth
    split at h1
    · rename_i hf
      cases hg : env.regParams[t % env.nReg]? with
      | none => rw [hg] at h1; cases h1
      | some rp => rw [hg] at h1; injection h1 with h1; simp [← h1, hf]
    · rename_i hf
      injection h1 with h1
      simp [← h1, hf, Env.nReg]

theorem selArr_wf {env : Env K G S M RP} {size : Nat} {rows : List (List K)}
    (h : ∀ r ∈ rows, r.length = env.selWidth size) : (selArr env size rows).WF := by
  unfold NDArr.WF selArr
  rw [List.length_map, flatten_length_of h]
  unfold Env.selWidth
  split <;> simp [shapeSize]

/-- Gathering the parts of `selection_coefs` gives the whole array on rank 0. -/
theorem runs_gatherSel {env : Env K G S M RP} (hn : 0 < n) (rows : List (List K))
    (h : ∀ r ∈ rows, r.length = env.selWidth n) :
    Runs (fun r : Fin n => gathervRows r.val 0 (.arr (selArr env n (splitPart rows n r.val))))
      (fun r => .ok (if r.val = 0 then some (selArr env n rows) else none)) := by
  have hwf : ∀ r : Fin n, (selArr env n (splitPart rows n r.val)).WF :=
    fun r => selArr_wf fun x hx => h x (mem_splitPart hx)
  have := runs_gathervRows hn (fun r : Fin n => .arr (selArr env n (splitPart rows n r.val)))
    _ (fun _ => rfl) (fun r : Fin n => (splitPart rows n r.val).length)
    (if env.fine n then [env.nCoef] else [env.nReg, env.nCoef]) .f64
    (by intro r; unfold selArr; split <;> rfl) (fun _ => rfl) hwf (ty := .f64) rfl
  refine cast ?_ this
  congr 1
  funext r
  have hdata : (List.ofFn fun r : Fin n => selArr env n (splitPart rows n r.val)).flatMap
      NDArr.data = rows.flatten.map Scalar.f := by
    have h1 := flatMap_splitPart rows (fun r => r.map Scalar.f) n hn
    rw [List.flatMap_def, List.map_ofFn]
    rw [List.flatMap_def, ← List.map_flatten] at h1
    rw [← h1]
    congr 2
    funext r
    simp [selArr, List.flatMap_def, List.map_flatten]
  rw [hdata, sum_length_splitPart rows n hn]
  unfold selArr
  by_cases hf : env.fine n = true <;> simp [hf]

/-! ### Supports -/

/-- All rows of a 2-d array have the same length. -/
def Rect : BArr → Prop
  | .d0 _ => True
  | .d1 _ => True
  | .d2 rows => ∃ m, ∀ r ∈ rows, r.length = m

theorem rect_unique [Zero K] [DecidableEq K] {A : Arr3 K} {ts : List Int} {B : BArr}
    (h : unique0 (squeeze2 (allRows A ts) A.n2) = .ok B) : Rect B := by
  cases B with
  | d0 b => trivial
  | d1 xs => trivial
  | d2 rows =>
    by_cases h1 : (allRows A ts).length = 1
    · obtain ⟨r, hr⟩ := List.length_eq_one_iff.1 h1
      rw [hr] at h
      unfold squeeze2 at h
      by_cases hp : A.n2 = 1 <;> simp [hp, unique0] at h
    · by_cases hp : A.n2 = 1
      · exfalso
        unfold squeeze2 at h
        split at h
        · rename_i r hr; rw [hr] at h1; simp at h1
        · simp [hp, unique0] at h
      · rw [squeeze2_d2 h1 hp] at h
        simp only [unique0, Except.ok.injEq, BArr.d2.injEq] at h
        refine ⟨A.n2, fun r hr => ?_⟩
        rw [← h, mem_uniqueRows, mem_allRows] at hr
        obtain ⟨t, _, l, _, hr⟩ := hr
        rw [hr, supportRow_length]

theorem rect_intersection [Zero K] [DecidableEq K] {A : Arr3 K} {ts : Option (List Int)} {B : BArr}
    (h : intersection A ts = .ok B) : Rect B := by
  cases ts <;> exact rect_unique h

theorem rect_intersect [Zero K] [DecidableEq K] {env : Env K G S M RP} {A : Arr3 K} {B : BArr}
    (h : env.intersect A = .ok B) : Rect B := by
  unfold Env.intersect at h
  split at h
  · unfold glmIntersect at h
    obtain ⟨s, hs, h⟩ := except_bind_ok h
    split at h
    · simp only at h
      split at h
      · cases h
      · simp only [pure, Except.pure, Except.ok.injEq] at h
        subst h
        refine ⟨(flat s).2 / env.outDim, fun r hr => ?_⟩
        rw [mem_uniqueRows] at hr
        exact orClasses_length hr
    · simp only [pure, Except.pure, Except.ok.injEq] at h
      subst h
      exact rect_intersection hs
  · exact rect_intersection h

theorem map_truthy (xs : List Bool) :
    (xs.map fun b => (Scalar.i (if b then 1 else 0) : Scalar K)).map truthy = xs := by
  induction xs with
  | nil => rfl
  | cons x xs ih =>
    simp only [List.map_cons, ih]
    cases x <;> simp [truthy]

theorem chunks {α : Type} {rows : List (List α)} {m : Nat} (h : ∀ r ∈ rows, r.length = m) :
    (List.range rows.length).map (fun i => (rows.flatten.drop (i * m)).take m) = rows := by
  induction rows with
  | nil => rfl
  | cons r rows ih =>
    have hr := h r List.mem_cons_self
    rw [List.length_cons, List.range_succ_eq_map, List.map_cons, List.map_map]
    congr 1
    · simp [hr]
    · refine Eq.trans ?_ (ih fun s hs => h s (List.mem_cons_of_mem _ hs))
      apply List.map_congr_left
      intro i _
      simp only [Function.comp, List.flatten_cons, Nat.succ_eq_add_one]
      rw [List.drop_append]
      have : (i + 1) * m - r.length = i * m := by rw [hr, Nat.succ_mul]; omega
      rw [this, List.drop_eq_nil_of_le (by rw [hr, Nat.succ_mul]; omega)]
      simp

theorem encodeB_ok {B : BArr} {k : Nat} (hr : Rect B) (h : shape0 B = .ok k) :
    (encodeB B : NDArr K).WF ∧ (encodeB B : NDArr K).shape ≠ [] ∧
      decodeB (encodeB B : NDArr K) = .ok B := by
  cases B with
  | d0 b => cases h
  | d1 xs =>
    refine ⟨by simp [encodeB, NDArr.WF, shapeSize], by simp [encodeB], ?_⟩
    simp only [encodeB, decodeB, map_truthy]
  | d2 rows =>
    obtain ⟨m, hm⟩ := hr
    have hh : ∀ r ∈ rows, r.length = (rows.headD []).length := by
      intro r hr
      cases rows with
      | nil => cases hr
      | cons r0 rows => rw [hm r hr]; exact (hm r0 List.mem_cons_self).symm
    refine ⟨?_, by simp [encodeB], ?_⟩
    · simp only [encodeB, NDArr.WF, shapeSize, List.length_map, flatten_length_uniform hh,
        List.foldr_cons, List.foldr_nil, Nat.mul_one]
    · simp only [encodeB, decodeB, ← List.map_take, ← List.map_drop, map_truthy, chunks hh]

/-- The selection module of all processes, given that each computes its part of `rows`. -/
theorem runs_selection_of_rows [Zero K] [DecidableEq K] {env : Env K G S M RP} (hn : 1 < n)
    {boots : List Split} {s : Fin n → S} (rows : List (List K))
    (hw : ∀ r ∈ rows, r.length = env.selWidth n)
    (hloop : ∀ r : Fin n, selLoop env n
      ((splitPart (env.selTasks n) n r.val).map (env.selBoot n)) boots
      (splitPart (env.selTasks n) n r.val) none (s r) = .ok (splitPart rows n r.val))
    {A : Arr3 K} {B : BArr} {k : Nat} (hA : toArr3 env (env.fine n) (selArr env n rows) = .ok A)
    (hB : env.intersect A = .ok B) (hk : shape0 B = .ok k) :
    Runs (fun r : Fin n => selection env n r.val boots (s r)) (fun _ => .ok B) := by
  have hn0 : 0 < n := by omega
  obtain ⟨hwf, hsh, hdec⟩ := encodeB_ok (K := K) (rect_intersect hB) hk
  unfold selection
  simp only [gt_iff_lt, hn, if_true]
  refine Runs.bind (Runs.lift hloop) ?_
  refine Runs.bind (runs_gatherSel hn0 rows hw) ?_
  refine Runs.bind (v := fun r => if r.val = 0 then .arr (encodeB B) else .none) ?_ ?_
  · refine (Runs.ret _).of_eq fun r => ?_
    by_cases hr : r.val = 0
    · simp only [hr, if_true, hA]
      change Prog.lift (env.intersect A >>= fun B => Except.ok (Obj.arr (encodeB B))) = _
      rw [hB]; rfl
    · simp [hr]
  · have hd : Supported (encodeB B : NDArr K).dtype := by cases B <;> simp [encodeB, Supported]
    have := runs_bcastFromRoot hn0
      (fun r => if r.val = 0 then .arr (encodeB B : NDArr K) else .none) (encodeB B)
      (by simp) (fun r hr => .inl (by simp [hr])) (np2mpi_of_supported hd) hwf
    rw [ascontiguous_of_ne hsh] at this
    exact Runs.bind this (Runs.lift fun _ => hdec)

theorem pairwise_splitPart_range (N k i : Nat) : (splitPart (List.range N) k i).Pairwise (· < ·) := by
  unfold splitPart
  exact (List.pairwise_lt_range.sublist (List.drop_sublist _ _)).sublist (List.take_sublist _ _)

theorem selection_serial [Zero K] [DecidableEq K] {env : Env K G S M RP} {boots : List Split}
    {s : S} {B : BArr} (h : selection env 1 0 boots s = .ret B) :
    ∃ rows A, selLoop env 1 (List.range env.nBootsSel) boots (env.selTasks 1) none s = .ok rows ∧
      toArr3 env false (selArr env 1 rows) = .ok A ∧ env.intersect A = .ok B := by
  unfold selection at h
  simp only [Nat.lt_irrefl, gt_iff_lt, if_false, splitPart_one] at h
  obtain ⟨rows, h1, h2⟩ := Prog.lift_bind_ret h
  obtain ⟨A, h3, h4⟩ := except_bind_ok (Prog.lift_eq_ret h2)
  exact ⟨rows, A, h1, h3, h4⟩

theorem fine_false {env : Env K G S M RP} {size : Nat} (h : size ≤ env.nBootsSel) :
    env.fine size = false := by
  simp [Env.fine]; omega

theorem selTask_size {env : Env K G S M RP} {a b : Nat} (h : env.fine a = env.fine b)
    {boots : List Split} {t : Nat} {row : List K} (ht : SelTask env a boots t row) :
    SelTask env b boots t row := by
  unfold SelTask at *
  simpa only [Env.selRegs, Env.selBoot, assignSel, h] using ht

theorem runs_selection [Zero K] [DecidableEq K] {env : Env K G S M RP} (hn : 1 < n)
    (hle : n ≤ env.nBootsSel) (hF : Forgets env) {boots : List Split} {s0 : S} (s : Fin n → S)
    {B : BArr} {k : Nat} (h : selection env 1 0 boots s0 = .ret B) (hk : shape0 B = .ok k) :
    Runs (fun r : Fin n => selection env n r.val boots (s r)) (fun _ => .ok B) := by
  have hf1 : env.fine 1 = false := fine_false (by omega)
  have hfn : env.fine n = false := fine_false hle
  have : Inhabited S := ⟨s0⟩
  obtain ⟨rows, A, h1, h2, h3⟩ := selection_serial h
  have ht1 : env.selTasks 1 = List.range env.nBootsSel := by simp [Env.selTasks, hf1]
  have htn : env.selTasks n = List.range env.nBootsSel := by simp [Env.selTasks, hfn]
  have htasks := selLoop_tasks hF hf1 (cur := none) ⟨by rw [ht1]; exact List.pairwise_lt_range,
    by intro c hc; cases hc⟩ h1
  rw [ht1] at htasks
  have htasks' : List.Forall₂ (SelTask env n boots) (List.range env.nBootsSel) rows :=
    htasks.imp fun _ _ => selTask_size (hf1.trans hfn.symm)
  have hw : ∀ r ∈ rows, r.length = env.selWidth n := by
    intro r hr
    obtain ⟨i, hi, rfl⟩ := List.getElem_of_mem hr
    have hi' : i < (List.range env.nBootsSel).length := by rw [htasks'.length_eq]; exact hi
    exact (List.forall₂_iff_get.1 htasks').2 i hi' hi |>.length
  refine runs_selection_of_rows hn rows hw ?_ (A := A) ?_ h3 hk
  · intro r
    rw [htn]
    refine selLoop_of_tasks hfn _ ⟨pairwise_splitPart_range _ _ _, by intro c hc; cases hc⟩ ?_
      (forall₂_splitPart htasks' n r.val)
    intro t ht
    exact List.mem_map.2 ⟨t, ht, by simp [Env.selBoot, hfn]⟩
  · simpa only [toArr3, selArr, hf1, hfn] using h2

/-! ### Selection with more processes than bootstraps -/

theorem forall₂_exists {α β γ : Type} {P : α → γ → Prop} {f : γ → β} {xs : List α} {ys : List β}
    (h : List.Forall₂ (fun x y => ∃ z, P x z ∧ y = f z) xs ys) :
    ∃ zs, List.Forall₂ P xs zs ∧ ys = zs.map f := by
  induction h with
  | nil => exact ⟨[], .nil, rfl⟩
  | cons hx _ ih =>
    obtain ⟨z, hz, rfl⟩ := hx
    obtain ⟨zs, hzs, rfl⟩ := ih
    exact ⟨z :: zs, .cons hz hzs, rfl⟩

theorem sweep_get {env : Env K G S M RP} {s : S} {regs : List RP} {train : List Nat}
    {rows : List (List K)} {s' : S} (h : sweep env s regs train = .ok (rows, s')) {l : Nat}
    {rp : RP} (hl : regs[l]? = some rp) :
    ∃ u u' row, env.fitSel u rp train = .ok u' ∧ assignRow env.nCoef (env.selCoef u') = .ok row ∧
      rows[l]? = some row := by
  induction regs generalizing s rows l with
  | nil => simp at hl
  | cons rp' regs ih =>
    simp only [sweep] at h
    cases h1 : env.fitSel s rp' train with
    | error e => rw [h1] at h; cases h
    | ok s1 =>
      rw [h1] at h; simp only at h
      cases h2 : assignRow env.nCoef (env.selCoef s1) with
      | error e => rw [h2] at h; cases h
      | ok row =>
        rw [h2] at h; simp only at h
        cases h3 : sweep env s1 regs train with
        | error e => rw [h3] at h; cases h
        | ok p =>
          obtain ⟨rs, s2⟩ := p
          rw [h3] at h
          simp only [Except.ok.injEq, Prod.mk.injEq] at h
          obtain ⟨rfl, rfl⟩ := h
          cases l with
          | zero =>
            simp only [List.getElem?_cons_zero, Option.some.injEq] at hl
            subst hl
            exact ⟨s, s1, row, h1, h2, by simp⟩
          | succ l =>
            simp only [List.getElem?_cons_succ] at hl ⊢
            exact ih h3 hl

/-- What a (bootstrap, parameter) task yields whatever the solver was fitted on before. -/
def FineTask (env : Env K G S M RP) (boots : List Split) (t : Nat) (row : List K) : Prop :=
  ∃ rp sp, env.regParams[t % env.nReg]? = some rp ∧ boots[t / env.nReg]? = some sp ∧
    ∀ s, ∃ s', env.fitSel s rp sp.train = .ok s' ∧ assignRow env.nCoef (env.selCoef s') = .ok row

theorem selLoop_of_fine {env : Env K G S M RP} {size : Nat} (hf : env.fine size = true)
    {keys : List Nat} {boots : List Split} {tasks : List Nat} (cur : Option Nat) (s : S)
    {rows : List (List K)} (hk : ∀ t ∈ tasks, t / env.nReg ∈ keys)
    (h : List.Forall₂ (FineTask env boots) tasks rows) :
    selLoop env size keys boots tasks cur s = .ok rows := by
  induction h generalizing cur s with
  | nil => rfl
  | @cons t row ts rest ht _ ih =>
    have hb : env.selBoot size t = t / env.nReg := by simp [Env.selBoot, hf]
    obtain ⟨rp, sp, h1, h2, h3⟩ := ht
    obtain ⟨s', h3, h4⟩ := h3 (if cur ≠ some (t / env.nReg) then env.reset s else s)
    have hr : env.selRegs size t = .ok [rp] := by simp [Env.selRegs, hf, h1]
    have ha : assignSel env size [row] = .ok row := by simp [assignSel, hf]
    simp only [selLoop, hb, hr, lookup_of_mem (hk t List.mem_cons_self) h2, sweep, h3, h4, ha,
      ih _ s' fun u hu => hk u (List.mem_cons_of_mem _ hu)]

theorem HistoryFree.forgets {env : Env K G S M RP} (h : HistoryFree env) : Forgets env :=
  fun s t rp tr => h (env.reset s) (env.reset t) rp tr

theorem runs_selection_fine [Zero K] [DecidableEq K] {env : Env K G S M RP} (hn : 1 < n)
    (hlt : env.nBootsSel < n) (hF : HistoryFree env) {boots : List Split} {s0 : S}
    (s : Fin n → S) {B : BArr} {k : Nat} (h : selection env 1 0 boots s0 = .ret B)
    (hk : shape0 B = .ok k) :
    Runs (fun r : Fin n => selection env n r.val boots (s r)) (fun _ => .ok B) := by
  have hfn : env.fine n = true := by simp [Env.fine, hlt]
  obtain ⟨rows, A, h1, h2, h3⟩ := selection_serial h
  -- the serial fit can only get here with at least one bootstrap
  have hf1 : env.fine 1 = false := by
    cases hf : env.fine 1 with
    | false => rfl
    | true => simp [toArr3, selArr, hf] at h2
  have ht1 : env.selTasks 1 = List.range env.nBootsSel := by simp [Env.selTasks, hf1]
  have htn : env.selTasks n = List.range (env.nBootsSel * env.nReg) := by
    simp [Env.selTasks, hfn]
  have htasks := selLoop_tasks hF.forgets hf1 (cur := none)
    ⟨by rw [ht1]; exact List.pairwise_lt_range, by intro c hc; cases hc⟩ h1
  rw [ht1] at htasks
  -- one list of rows per bootstrap
  obtain ⟨rss, hrss, hrows⟩ := forall₂_exists (P := fun b rs => ∃ sp : Split,
      boots[b]? = some sp ∧ ∀ s, ∃ s', sweep env (env.reset s) env.regParams sp.train = .ok (rs, s'))
    (f := List.flatten) (htasks.imp fun b row ht => by
      obtain ⟨regs, sp, rs, e1, e2, e3, e4⟩ := ht
      have hb : env.selBoot 1 b = b := by simp [Env.selBoot, hf1]
      simp only [Env.selRegs, hf1] at e1
      injection e1 with e1
      subst e1
      rw [hb] at e2
      refine ⟨rs, ⟨sp, e2, e3⟩, ?_⟩
      unfold assignSel at e4
      split at e4
      · cases e4
      · injection e4 with e4; exact e4.symm)
  have hlen : rss.length = env.nBootsSel := by rw [← hrss.length_eq]; simp
  have hget : ∀ b (hb : b < rss.length), ∃ sp : Split, boots[b]? = some sp ∧
      ∀ s, ∃ s', sweep env (env.reset s) env.regParams sp.train = .ok (rss[b], s') := by
    intro b hb
    have := (List.forall₂_iff_get.1 hrss).2 b (by simpa [hlen] using hb) hb
    simpa using this
  have hsz : ∀ rs ∈ rss, rs.length = env.nReg := by
    intro rs hm
    obtain ⟨b, hb, rfl⟩ := List.getElem_of_mem hm
    obtain ⟨sp, _, hs⟩ := hget b hb
    obtain ⟨s', hs⟩ := hs s0
    exact (sweep_rows hs).1
  have hw : ∀ r ∈ rss.flatten, r.length = env.selWidth n := by
    intro r hr
    obtain ⟨rs, hm, hr⟩ := List.mem_flatten.1 hr
    obtain ⟨b, hb, rfl⟩ := List.getElem_of_mem hm
    obtain ⟨sp, _, hs⟩ := hget b hb
    obtain ⟨s', hs⟩ := hs s0
    simpa [Env.selWidth, hfn] using (sweep_rows hs).2 r hr
  have hflen : rss.flatten.length = env.nBootsSel * env.nReg := by
    rw [flatten_length_uniform hsz, hlen]
  have hfine : List.Forall₂ (FineTask env boots) (List.range (env.nBootsSel * env.nReg))
      rss.flatten := by
    refine List.forall₂_iff_get.2 ⟨by simp [hflen], ?_⟩
    intro t ht1 ht2
    have ht : t < env.nBootsSel * env.nReg := by simpa using ht1
    have hp : 0 < env.nReg := Nat.pos_of_mul_pos_left (Nat.lt_of_le_of_lt (Nat.zero_le _) ht)
    have hb : t / env.nReg < rss.length := by
      rw [hlen]; exact Nat.div_lt_of_lt_mul (by rwa [Nat.mul_comm] at ht)
    have hl : t % env.nReg < env.nReg := Nat.mod_lt _ hp
    obtain ⟨sp, hsp, hs⟩ := hget _ hb
    obtain ⟨s', hs⟩ := hs s0
    have hrp : env.regParams[t % env.nReg]? = some (env.regParams[t % env.nReg]'hl) :=
      List.getElem?_eq_getElem hl
    obtain ⟨u, u', row, e1, e2, e3⟩ := sweep_get hs hrp
    have hrow : rss.flatten[t]? = some row := by
      have := flatten_getElem?_uniform hsz (t / env.nReg) (t % env.nReg) hl
      rw [Nat.div_add_mod'] at this
      rw [this, List.getElem?_eq_getElem hb]
      exact e3
    refine ⟨_, sp, by simpa using hrp, by simpa using hsp, ?_⟩
    intro v
    refine ⟨u', by rw [hF v u]; exact e1, ?_⟩
    rw [e2]
    have := List.getElem?_eq_getElem ht2
    rw [hrow] at this
    injection this with this
    rw [this]; rfl
  refine runs_selection_of_rows hn rss.flatten hw ?_ (A := A) ?_ h3 hk
  · intro r
    rw [htn]
    refine selLoop_of_fine hfn _ _ ?_ (forall₂_splitPart hfine n r.val)
    intro t ht
    exact List.mem_map.2 ⟨t, ht, by simp [Env.selBoot, hfn]⟩
  · have hdata : rss.flatten.flatten = rows.flatten := by rw [hrows, List.flatten_flatten]
    have hrl : rows.length = env.nBootsSel := by rw [hrows]; simp [hlen]
    have hcount : rss.flatten.flatten.length = env.nBootsSel * env.nReg * env.nCoef := by
      rw [flatten_length_uniform (m := env.nCoef), hflen]
      intro r hr
      simpa [Env.selWidth, hfn] using hw r hr
    simp only [toArr3, selArr, hf1, hfn, if_true, List.length_map, hcount, hrl] at h2 ⊢
    rw [hdata]
    simpa using h2

/-! ### Estimation -/

theorem fillMask_length [Zero K] (m : List Bool) (vs : List K) :
    (fillMask m vs).length = m.length := by
  induction m generalizing vs with
  | nil => rfl
  | cons b m ih =>
    cases b with
    | false => simp [fillMask, ih]
    | true => cases vs <;> simp [fillMask, ih]

theorem assignMasked_length [Zero K] {m : Nat} {mask : List Bool} {vals row : List K}
    (h : assignMasked m mask vals = .ok row) : row.length = m := by
  unfold assignMasked at h
  split at h
  · cases h
  · rename_i hm
    have hm : mask.length = m := by simpa using hm
    split at h
    · injection h with h; rw [← h, fillMask_length, hm]
    · split at h
      · injection h with h; rw [← h, fillMask_length, hm]
      · cases h

theorem estTask_length [Zero K] {env : Env K G S M RP} {supports : BArr} {nSup : Nat}
    {keys : List Nat} {boots : List Split} {t : Nat} {q : List K × K}
    (h : estTask env supports nSup keys boots t = .ok q) : q.1.length = env.nCoef := by
  unfold estTask at h
  obtain ⟨sup, _, h⟩ := except_bind_ok h
  obtain ⟨sp, _, h⟩ := except_bind_ok h
  have hempty : ∀ {q : List K × K}, (do
      let m ← env.fitEmpty sp.train
      let sc ← env.scoreEmpty m sp
      return (List.replicate env.nCoef 0, sc) : Except PyErr (List K × K)) = .ok q →
      q.1.length = env.nCoef := by
    intro q h
    obtain ⟨m, _, h⟩ := except_bind_ok h
    obtain ⟨sc, _, h⟩ := except_bind_ok h
    simp only [pure, Except.pure, Except.ok.injEq] at h
    rw [← h]; simp
  cases sup with
  | scalar b =>
    cases b with
    | true => cases h
    | false => exact hempty h
  | mask mask =>
    simp only at h
    split at h
    · obtain ⟨m, _, h⟩ := except_bind_ok h
      obtain ⟨row, hrow, h⟩ := except_bind_ok h
      obtain ⟨sc, _, h⟩ := except_bind_ok h
      simp only [pure, Except.pure, Except.ok.injEq] at h
      rw [← h]
      split at hrow
      · exact assignMasked_length hrow
      · exact assignRow_length hrow
    · exact hempty h

theorem estTask_keys [Zero K] {env : Env K G S M RP} {supports : BArr} {nSup : Nat}
    {keys keys' : List Nat} {boots : List Split} {t : Nat} (h : t / nSup ∈ keys)
    (h' : t / nSup ∈ keys') :
    estTask env supports nSup keys boots t = estTask env supports nSup keys' boots t := by
  unfold estTask
  simp only [lookup, h, h', if_true]

theorem estArr_wf {env : Env K G S M RP} {res : List (List K × K)}
    (h : ∀ q ∈ res, q.1.length = env.nCoef) : (estArr env res).WF := by
  unfold NDArr.WF estArr
  rw [List.length_map, flatten_length_of (m := env.nCoef)]
  · simp [shapeSize]
  · intro r hr
    obtain ⟨q, hq, rfl⟩ := List.mem_map.1 hr
    exact h q hq

theorem runs_gatherEst {env : Env K G S M RP} (hn : 0 < n) (res : List (List K × K))
    (h : ∀ q ∈ res, q.1.length = env.nCoef) :
    Runs (fun r : Fin n => gathervRows r.val 0 (.arr (estArr env (splitPart res n r.val))))
      (fun r => .ok (if r.val = 0 then some (estArr env res) else none)) := by
  have := runs_gathervRows hn (fun r : Fin n => .arr (estArr env (splitPart res n r.val)))
    _ (fun _ => rfl) (fun r : Fin n => (splitPart res n r.val).length) [env.nCoef] .f64
    (fun _ => rfl) (fun _ => rfl) (fun r => estArr_wf fun x hx => h x (mem_splitPart hx))
    (ty := .f64) rfl
  refine cast ?_ this
  congr 1
  funext r
  have hdata : (List.ofFn fun r : Fin n => estArr env (splitPart res n r.val)).flatMap
      NDArr.data = (estArr env res).data := by
    have h1 := flatMap_splitPart res (fun q => q.1.map Scalar.f) n hn
    rw [List.flatMap_def, List.map_ofFn]
    have e : (estArr env res).data = res.flatMap fun q => q.1.map Scalar.f := by
      simp [estArr, List.flatMap_def, List.map_flatten, Function.comp_def]
    rw [e, ← h1]
    congr 2
    funext r
    simp [estArr, List.flatMap_def, List.map_flatten, Function.comp_def]
  rw [hdata, sum_length_splitPart res n hn]
  rfl

theorem runs_gatherScore (hn : 0 < n) (res : List (List K × K)) :
    Runs (fun r : Fin n => gathervRows r.val 0 (.arr (scoreArr (splitPart res n r.val))))
      (fun r => .ok (if r.val = 0 then some (scoreArr res) else none)) := by
  have := runs_gathervRows hn (fun r : Fin n => .arr (scoreArr (splitPart res n r.val)))
    _ (fun _ => rfl) (fun r : Fin n => (splitPart res n r.val).length) [] .f64
    (fun _ => rfl) (fun _ => rfl) (fun r => by simp [NDArr.WF, scoreArr, shapeSize])
    (ty := .f64) rfl
  refine cast ?_ this
  congr 1
  funext r
  have hdata : (List.ofFn fun r : Fin n => scoreArr (splitPart res n r.val)).flatMap
      NDArr.data = (scoreArr res).data := by
    rw [List.flatMap_def, List.map_ofFn]
    have e : (scoreArr res).data = (splitPart res 1 0).map fun q => Scalar.f q.2 := by
      rw [splitPart_one]; rfl
    rw [e, splitPart_one]
    conv_rhs => rw [← flatten_splitPart res n hn]
    rw [List.map_flatten, List.map_ofFn]
    rfl
  rw [hdata, sum_length_splitPart res n hn]
  rfl

theorem reduce_wf [LinearOrder K] [Field K] {env : Env K G S M RP} (hI : GoodIntercept env)
    {nSup : Nat} {e c : NDArr K} {q : NDArr K × NDArr K × List Nat × NDArr K × NDArr K}
    (he : e.dtype = .f64) (hc : c.dtype = .f64)
    (h : reduce env nSup e c = .ok q) :
    (q.1.WF ∧ Supported q.1.dtype ∧ q.1.shape ≠ []) ∧
    (q.2.1.WF ∧ Supported q.2.1.dtype ∧ q.2.1.shape ≠ []) ∧
    (q.2.2.2.1.WF ∧ Supported q.2.2.2.1.dtype ∧ q.2.2.2.1.shape ≠ []) ∧
    (q.2.2.2.2.WF ∧ Supported q.2.2.2.2.dtype ∧ q.2.2.2.2.shape ≠ []) := by
  unfold reduce at h
  obtain ⟨e', h1, h⟩ := except_bind_ok h
  obtain ⟨c', h2, h⟩ := except_bind_ok h
  split at h
  · cases h
  obtain ⟨rp, _, h⟩ := except_bind_ok h
  obtain ⟨ic, h5, h⟩ := except_bind_ok h
  simp only [pure, Except.pure, Except.ok.injEq] at h
  subst h
  unfold reshape at h1 h2
  split at h1
  · rename_i hs1
    split at h2
    · rename_i hs2
      injection h1 with h1; injection h2 with h2
      subst h1 h2
      refine ⟨⟨hs1, ?_, by simp⟩, ⟨hs2, ?_, by simp⟩, ⟨?_, ?_, by simp⟩, hI _ _ h5⟩
      · simp [he, Supported]
      · simp [hc, Supported]
      · simp [NDArr.WF, shapeSize, Env.nCoef, Nat.mul_comm]
      · simp [Supported]
    · cases h2
  · cases h1

theorem runs_estimation [LinearOrder K] [Field K] {env : Env K G S M RP} (hn : 1 < n)
    (hI : GoodIntercept env) {supports : BArr} {nSup : Nat} {boots : List Split}
    {st : FitState K} (h : estimation env 1 0 supports nSup boots = .ret st) :
    Runs (fun r : Fin n => estimation env n r.val supports nSup boots) (fun _ => .ok st) := by
  have hn0 : 0 < n := by omega
  unfold estimation at h
  simp only [Nat.lt_irrefl, gt_iff_lt, if_false, splitPart_one] at h
  obtain ⟨res, h1, h⟩ := Prog.lift_bind_ret h
  obtain ⟨q, h2, h⟩ := Prog.lift_bind_ret h
  obtain ⟨ci, h3, h⟩ := Prog.lift_bind_ret h
  have hst : (⟨supports, q.1, q.2.1, q.2.2.1, ci.1, ci.2⟩ : FitState K) = st := by
    injection h
  have hlen : ∀ p ∈ res, p.1.length = env.nCoef := by
    intro p hp
    obtain ⟨i, hi, rfl⟩ := List.getElem_of_mem hp
    rw [mapE_ok_iff] at h1
    have hi' : i < (List.range (env.nBootsEst * nSup)).length := by rw [h1.length_eq]; exact hi
    exact estTask_length ((List.forall₂_iff_get.1 h1).2 i hi' hi)
  obtain ⟨w1, w2, w3, w4⟩ := reduce_wf hI rfl rfl h2
  unfold estimation
  simp only [gt_iff_lt, hn, if_true]
  refine Runs.bind (v := fun r => splitPart res n r.val) (Runs.lift fun r => ?_) ?_
  · rw [← mapE_splitPart h1 n r.val]
    refine mapE_congr fun t ht => estTask_keys (List.mem_map.2 ⟨t, ht, rfl⟩) ?_
    have := List.mem_range.1 (mem_splitPart ht)
    exact List.mem_range.2 (Nat.div_lt_of_lt_mul (by rwa [Nat.mul_comm] at this))
  refine Runs.bind (runs_gatherEst hn0 res hlen) ?_
  refine Runs.bind (runs_gatherScore hn0 res) ?_
  refine Runs.bind (v := fun r => if r.val = 0 then some q else none) ?_ ?_
  · refine (Runs.ret _).of_eq fun r => ?_
    by_cases hr : r.val = 0
    · simp only [hr, if_true, h2]; rfl
    · simp [hr]
  refine Runs.bind (runs_bcastOwn hn0 _ q (fun q => q.1) (by simp) (fun r hr => by simp [hr])
    w1.1 w1.2.1 w1.2.2) ?_
  refine Runs.bind (runs_bcastOwn hn0 _ q (fun q => q.2.1) (by simp) (fun r hr => by simp [hr])
    w2.1 w2.2.1 w2.2.2) ?_
  refine Runs.bind (runs_bcastOwn hn0 _ q (fun q => q.2.2.2.1) (by simp)
    (fun r hr => by simp [hr]) w3.1 w3.2.1 w3.2.2) ?_
  refine Runs.bind (runs_bcastOwn hn0 _ q (fun q => q.2.2.2.2) (by simp)
    (fun r hr => by simp [hr]) w4.1 w4.2.1 w4.2.2) ?_
  refine Runs.bind (runs_bcast ⟨0, hn0⟩
    (fun r => (if r.val = 0 then some q else none).elim .none fun q => .nats q.2.2.1)
    (w := .nats q.2.2.1) (by simp)) ?_
  refine Runs.bind (v := fun _ => q.2.2.1) (Runs.lift fun _ => rfl) ?_
  refine Runs.bind (v := fun _ => ci) (Runs.lift fun _ => h3) ?_
  exact (Runs.ret _).of_eq fun r => by rw [hst]

/-- Serial execution of `fit`, taken apart. -/
theorem fit_serial [LinearOrder K] [Field K] {env : Env K G S M RP} {g : G} {s : S}
    {st : FitState K} (h : fit env 1 0 g s = .ret st) :
    ∃ b1 g1 B k b2 g2, drawList env false env.nBootsSel g = .ok (b1, g1) ∧
      selection env 1 0 b1 s = .ret B ∧ shape0 B = .ok k ∧
      drawList env true env.nBootsEst g1 = .ok (b2, g2) ∧
      estimation env 1 0 B k b2 = .ret st := by
  unfold fit at h
  rw [drawBoots_serial] at h
  obtain ⟨p, h1, h⟩ := Prog.lift_bind_ret h
  have hsel : ∃ B, selection env 1 0 p.1 s = .ret B := by
    unfold selection at h ⊢
    simp only [Nat.lt_irrefl, gt_iff_lt, if_false, splitPart_one, bind_assoc] at h ⊢
    obtain ⟨rows, h2, h⟩ := Prog.lift_bind_ret h
    obtain ⟨B, h3, h⟩ := Prog.lift_bind_ret h
    exact ⟨B, by rw [h2]; change Prog.lift _ = _; rw [h3]; rfl⟩
  obtain ⟨B, hB⟩ := hsel
  rw [hB] at h
  obtain ⟨k, h3, h⟩ := Prog.lift_bind_ret (f := fun nSup => do
    let q ← drawBoots env 1 0 true env.nBootsEst p.2
    estimation env 1 0 B nSup q.1) h
  rw [drawBoots_serial] at h
  obtain ⟨q, h4, h⟩ := Prog.lift_bind_ret h
  exact ⟨p.1, p.2, B, k, q.1, q.2, h1, hB, h3, h4, h⟩

/-- A distributed `fit` from its selection module. -/
theorem runs_fit_of_selection [LinearOrder K] [Field K] {env : Env K G S M RP} (hn : 1 < n)
    (hI : GoodIntercept env) {g : Fin n → G} {s0 : S} {s : Fin n → S} {st : FitState K}
    (hsel : ∀ b1 B k, selection env 1 0 b1 s0 = .ret B → shape0 B = .ok k →
      Runs (fun r : Fin n => selection env n r.val b1 (s r)) (fun _ => .ok B))
    (h : fit env 1 0 (g ⟨0, by omega⟩) s0 = .ret st) :
    Runs (fun r : Fin n => fit env n r.val (g r) (s r)) (fun _ => .ok st) := by
  obtain ⟨b1, g1, B, k, b2, g2, h1, h2, h3, h4, h5⟩ := fit_serial h
  unfold fit
  refine Runs.bind (runs_drawBoots hn env false _ g b1 g1 h1) ?_
  refine Runs.bind (hsel b1 B k h2 h3) ?_
  refine Runs.bind (v := fun _ => k) (Runs.lift fun _ => h3) ?_
  refine Runs.bind (runs_drawBoots hn env true _ (fun r => if r.val = 0 then g1 else g r) b2 g2
    (by simpa using h4)) ?_
  exact runs_estimation hn hI h5

end Verif.Fit
