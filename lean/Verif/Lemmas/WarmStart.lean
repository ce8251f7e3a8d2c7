import Verif.Lemmas.Fit
import Verif.Model.WarmStart
/-! Helper lemmas: the selection loop and what the solver remembers. -/
namespace Verif.Fit
open Verif.Py Verif.MpiUtils

variable {K G S M RP : Type}

/-- On the states described by `Inv`, preserved by fitting on the row lists described by `Ok`, the
    reset makes the solver forget. -/
structure Restarts (env : Env K G S M RP) (Ok : List Nat → Prop) (Inv : S → Prop) : Prop where
  fit : ∀ s rp tr s', Ok tr → Inv s → env.fitSel s rp tr = .ok s' → Inv s'
  reset : ∀ s, Inv s → Inv (env.reset s)
  forget : ∀ s t rp tr, Inv s → Inv t →
    env.fitSel (env.reset s) rp tr = env.fitSel (env.reset t) rp tr

theorem sweep_inv {env : Env K G S M RP} {Ok : List Nat → Prop} {Inv : S → Prop}
    (hR : Restarts env Ok Inv) {s : S}
    {regs : List RP} {tr : List Nat} {p : List (List K) × S} (htr : Ok tr)
    (hs : Inv s)     (h : sweep env s regs tr = .ok p) : Inv p.2 := by
  induction regs generalizing s p with
  | nil => simp only [sweep, Except.ok.injEq] at h; subst h; exact hs
  | cons rp regs ih =>
    simp only [sweep] at h
    cases h1 : env.fitSel s rp tr with
    | error e => rw [h1] at h; cases h
    | ok s1 =>
      rw [h1] at h; simp only at h
      cases h2 : assignRow env.nCoef (env.selCoef s1) with
      | error e => rw [h2] at h; cases h
      | ok row =>
        rw [h2] at h; simp only at h
        cases h3 : sweep env s1 regs tr with
        | error e => rw [h3] at h; cases h
        | ok q =>
          rw [h3] at h
          simp only [Except.ok.injEq] at h
          subst h
          exact ih (p := q) (hR.fit _ _ _ _ htr hs h1) h3

/-- Two states the solver cannot tell apart. -/
def Same (env : Env K G S M RP) (s t : S) : Prop := ∀ rp tr, env.fitSel s rp tr = env.fitSel t rp tr

theorem sweep_same {env : Env K G S M RP} {s t : S} (h : Same env s t) {regs : List RP}
    {tr : List Nat} {p q : List (List K) × S} (hp : sweep env s regs tr = .ok p)
    (hq : sweep env t regs tr = .ok q) : p.1 = q.1 ∧ Same env p.2 q.2 := by
  cases regs with
  | nil =>
    simp only [sweep, Except.ok.injEq] at hp hq
    subst hp hq
    exact ⟨rfl, h⟩
  | cons rp regs =>
    simp only [sweep] at hp hq
    rw [h rp tr, hq] at hp
    injection hp with hp
    subst hp
    exact ⟨rfl, fun _ _ => rfl⟩

/-- The loop, taken apart at its first task. -/
theorem selLoop_cons {env : Env K G S M RP} {size : Nat} {keys : List Nat} {boots : List Split}
    {t : Nat} {ts : List Nat} {cur : Option Nat} {s : S} {rows : List (List K)}
    (h : selLoop env size keys boots (t :: ts) cur s = .ok rows) :
    ∃ regs sp p row rest, env.selRegs size t = .ok regs ∧
      boots[env.selBoot size t]? = some sp ∧
      sweep env (if cur ≠ some (env.selBoot size t) then env.reset s else s) regs sp.train = .ok p ∧
      assignSel env size p.1 = .ok row ∧
      selLoop env size keys boots ts (some (env.selBoot size t)) p.2 = .ok rest ∧
      rows = row :: rest := by
  simp only [selLoop] at h
  cases h1 : env.selRegs size t with
  | error e => rw [h1] at h; cases h
  | ok regs =>
    rw [h1] at h; simp only at h
    cases h2 : lookup keys boots (env.selBoot size t) with
    | error e => rw [h2] at h; cases h
    | ok sp =>
      rw [h2] at h; simp only at h
      generalize hs0 : (if cur ≠ some (env.selBoot size t) then env.reset s else s) = s0 at h ⊢
      cases h3 : sweep env s0 regs sp.train with
      | error e => rw [h3] at h; cases h
      | ok p =>
        rw [h3] at h; simp only at h
        cases h4 : assignSel env size p.1 with
        | error e => rw [h4] at h; cases h
        | ok row =>
          rw [h4] at h; simp only at h
          cases h5 : selLoop env size keys boots ts (some (env.selBoot size t)) p.2 with
          | error e => rw [h5] at h; cases h
          | ok rest =>
            rw [h5] at h; injection h with h
            exact ⟨regs, sp, p, row, rest, rfl, lookup_ok h2, h3, h4, h5, h.symm⟩

/-- Two runs over the same tasks, with possibly different bootstraps and different earlier states,
    give the same rows for the tasks of a bootstrap on which they agree. -/
theorem selLoop_local {env : Env K G S M RP} {Ok : List Nat → Prop} {Inv : S → Prop}
    (hR : Restarts env Ok Inv)
    {size : Nat} {keys : List Nat} {boots boots' : List Split} {b : Nat}
    (hok : ∀ sp ∈ boots, Ok sp.train) (hok' : ∀ sp ∈ boots', Ok sp.train)
    (hb : boots[b]? = boots'[b]?) {tasks : List Nat} {cur : Option Nat} {s s' : S}
    {rows rows' : List (List K)} (hs : Inv s) (hs' : Inv s')
    (hcur : cur = some b → Same env s s')
    (h : selLoop env size keys boots tasks cur s = .ok rows)
    (h' : selLoop env size keys boots' tasks cur s' = .ok rows') (i t : Nat)
    (hi : tasks[i]? = some t) (ht : env.selBoot size t = b) : rows[i]? = rows'[i]? := by
  induction tasks generalizing cur s s' rows rows' i with
  | nil => simp at hi
  | cons u us ih =>
    obtain ⟨regs, sp, p, row, rest, a1, a2, a3, a4, a5, rfl⟩ := selLoop_cons h
    obtain ⟨regs', sp', p', row', rest', b1, b2, b3, b4, b5, rfl⟩ := selLoop_cons h'
    have hreg : regs = regs' := by rw [a1] at b1; injection b1
    subst hreg
    have hInv : Inv p.2 := by
      refine sweep_inv hR (hok _ (List.mem_of_getElem? a2)) ?_ a3
      split
      · exact hR.reset _ hs
      · exact hs
    have hInv' : Inv p'.2 := by
      refine sweep_inv hR (hok' _ (List.mem_of_getElem? b2)) ?_ b3
      split
      · exact hR.reset _ hs'
      · exact hs'
    by_cases hub : env.selBoot size u = b
    · have hsp : sp = sp' := by
        rw [hub] at a2 b2
        rw [hb, b2] at a2
        injection a2 with a2
        exact a2.symm
      subst hsp
      have hsame : Same env (if cur ≠ some (env.selBoot size u) then env.reset s else s)
          (if cur ≠ some (env.selBoot size u) then env.reset s' else s') := by
        split
        · exact fun rp tr => hR.forget _ _ rp tr hs hs'
        · rename_i hc
          have hc : cur = some b := by rw [← hub]; exact not_not.1 hc
          exact hcur hc
      obtain ⟨e1, e2⟩ := sweep_same hsame a3 b3
      cases i with
      | zero =>
        have : row = row' := by rw [e1, b4] at a4; injection a4 with a4; exact a4.symm
        simp [this]
      | succ i =>
        simp only [List.getElem?_cons_succ] at hi ⊢
        exact ih hInv hInv' (fun _ => e2) a5 b5 i hi
    · cases i with
      | zero =>
        simp only [List.getElem?_cons_zero, Option.some.injEq] at hi
        subst hi
        exact absurd ht hub
      | succ i =>
        simp only [List.getElem?_cons_succ] at hi ⊢
        refine ih hInv hInv' (fun hc => ?_) a5 b5 i hi
        injection hc with hc
        exact absurd hc hub

/-- States of a Poisson solver in which nothing is infinite or NaN. -/
def FinLM (nFeat : Nat) (s : LM K) : Prop :=
  (∀ c, s.coef = some c → c.length = nFeat ∧ ∀ x ∈ c, x.IsFin) ∧ ∀ i, s.intercept = some i → i.IsFin

theorem map_mulZero [Zero K] {c : List (Ext K)} (h : ∀ x ∈ c, x.IsFin) :
    c.map Ext.mulZero = List.replicate c.length (.fin 0) := by
  rw [List.eq_replicate_iff]
  refine ⟨by simp, fun y hy => ?_⟩
  obtain ⟨x, hx, rfl⟩ := List.mem_map.1 hy
  have := h x hx
  cases x <;> first | rfl | exact absurd this id

/-- From a state without special values the reset restores the cold start. -/
theorem start_reset [MulZeroClass K] {d : PoisData K RP} {s : LM K} (hs : FinLM d.nFeat s)
    (rows : List Nat) (hsc : (d.scale rows).length = d.nFeat) :
    d.start s.reset rows = (List.replicate d.nFeat (.fin 0), .fin 0) := by
  unfold PoisData.start LM.reset
  refine Prod.ext ?_ ?_
  · cases hc : s.coef with
    | none => rfl
    | some c =>
      obtain ⟨hl, hf⟩ := hs.1 c hc
      simp only [Option.map_some]
      rw [map_mulZero hf, hl, List.eq_replicate_iff]
      refine ⟨by simp [hsc], fun y hy => ?_⟩
      rw [List.mem_iff_getElem] at hy
      obtain ⟨i, hi, rfl⟩ := hy
      simp [Ext.scale]
  · cases hi : s.intercept with
    | none => rfl
    | some i =>
      have := hs.2 i hi
      simp only [Option.map_some]
      cases i <;> first | rfl | exact absurd this id

theorem poisson_restarts [MulZeroClass K] [DecidableEq K] {d : PoisData K RP}
    (base : Env (Ext K) G (LM K) M RP) (hsc : ∀ rows, (d.scale rows).length = d.nFeat)
    {Ok : List Nat → Prop} (hy : ∀ tr, Ok tr → ∃ r ∈ tr, d.y r ≠ 0)
    (hsol : ∀ st rp rows c i, d.solve st rp rows = .ok (c, i) →
      c.length = d.nFeat ∧ (∀ x ∈ c, x.IsFin) ∧ i.IsFin) :
    Restarts (d.env base) Ok (FinLM d.nFeat) where
  fit := by
    intro s rp tr s' htr hs h
    simp only [PoisData.env, PoisData.fit] at h
    split at h
    · injection h with h
      subst h
      refine ⟨fun c hc => ?_, fun i hi => ?_⟩
      · simp only [Option.some.injEq] at hc
        subst hc
        refine ⟨by simp, fun x hx => ?_⟩
        rw [List.eq_of_mem_replicate hx]
        trivial
      · simp only [Option.some.injEq] at hi
        rw [if_pos] at hi
        · subst hi; trivial
        · rw [List.any_eq_true]
          obtain ⟨r, hr, hne⟩ := hy tr htr
          exact ⟨d.y r, List.mem_map.2 ⟨r, hr, rfl⟩, by simpa using hne⟩
    · cases hso : d.solve (d.start s tr) rp tr with
      | error e => rw [hso] at h; cases h
      | ok p =>
        obtain ⟨c, i⟩ := p
        rw [hso] at h
        simp only [Except.ok.injEq] at h
        subst h
        obtain ⟨a1, a2, a3⟩ := hsol _ _ _ _ _ hso
        refine ⟨fun c' hc => ?_, fun i' hi => ?_⟩
        · simp only [Option.some.injEq] at hc; subst hc; exact ⟨a1, a2⟩
        · simp only [Option.some.injEq] at hi; subst hi; exact a3
  reset := by
    intro s hs
    refine ⟨fun c hc => ?_, fun i hi => ?_⟩
    · simp only [PoisData.env, LM.reset, Option.map_eq_some_iff] at hc
      obtain ⟨c0, h0, rfl⟩ := hc
      obtain ⟨hl, hf⟩ := hs.1 c0 h0
      rw [map_mulZero hf]
      refine ⟨by simp [hl], fun x hx => ?_⟩
      rw [List.eq_of_mem_replicate hx]
      trivial
    · simp only [PoisData.env, LM.reset, Option.map_eq_some_iff] at hi
      obtain ⟨i0, h0, rfl⟩ := hi
      have := hs.2 i0 h0
      cases i0 <;> trivial
  forget := by
    intro s t rp tr hs ht
    simp only [PoisData.env, PoisData.fit]
    rw [start_reset hs tr (hsc tr), start_reset ht tr (hsc tr)]

end Verif.Fit
