import Verif.Py.Schedule
import Verif.Lemmas.Mpi
import Mathlib.Data.Fintype.Card
import Mathlib.Data.Finset.Card
/-! Helper lemmas about worlds, the sequence of collectives of a program, and schedules. -/
namespace Verif.Py

variable {K α β : Type} {n : Nat}

/-- Unless it raises, the program enters exactly these collectives in this order. -/
inductive Follows : Prog K α → List (Kind × Nat) → Prop where
  | fail (e ts) : Follows (.fail e) ts
  | ret (a) : Follows (.ret a) []
  | coll (op k ts) : (∀ o, Follows (k o) ts) → Follows (.coll op k) (op.tag :: ts)

theorem Follows.bind {m : Prog K α} {f : α → Prog K β} {ts us : List (Kind × Nat)}
    (h : Follows m ts) (h' : ∀ a, Follows (f a) us) : Follows (m >>= f) (ts ++ us) := by
  induction h with
  | fail e ts => exact .fail e _
  | ret a => exact h' a
  | coll op k ts _ ih => exact .coll op _ _ fun o => ih o

theorem Follows.lift (x : Except PyErr α) : Follows (K := K) (Prog.lift x) [] := by
  cases x with
  | ok a => exact .ret a
  | error e => exact .fail e _

theorem Follows.call (op : Op K) : Follows (Prog.call op) [op.tag] :=
  .coll op _ [] fun o => .ret o

/-- A local computation in front. -/
theorem Follows.lift_bind (x : Except PyErr α) {f : α → Prog K β} {us : List (Kind × Nat)}
    (h' : ∀ a, Follows (f a) us) : Follows (Prog.lift x >>= f) us :=
  (Follows.lift x).bind h'

/-- A collective in front. -/
theorem Follows.call_bind (op : Op K) {f : Obj K → Prog K β} {t : Kind × Nat}
    {us : List (Kind × Nat)} (ht : op.tag = t) (h' : ∀ a, Follows (f a) us) :
    Follows (Prog.call op >>= f) (t :: us) := ht ▸ (Follows.call op).bind h'

theorem Runs.fail_out {W : Fin n → Prog K α} {out : Fin n → Except PyErr α} (h : Runs W out)
    {r : Fin n} {e : PyErr} (hr : W r = .fail e) : out r = .error e := by
  cases h with
  | done hd => have := hd r; rw [hr] at this; exact (Option.some.inj this).symm
  | step ops k tag hn hW _ _ => rw [hW r] at hr; cases hr

/-- If the first part follows the same collectives everywhere, a run of the whole contains a run of
    the first part. -/
theorem Runs.bind_inv {m : Fin n → Prog K α} {k : Fin n → α → Prog K β}
    {out : Fin n → Except PyErr β} {ts : List (Kind × Nat)} (hf : ∀ r, Follows (m r) ts)
    (h : Runs (fun r => m r >>= k r) out) :
    ∃ o, Runs m o ∧ Runs (fun r => after (o r) (k r)) out := by
  induction ts generalizing m with
  | nil =>
    have hdone : ∀ r, ∃ o, (m r).outcome = some o ∧ (m r >>= k r) = after o (k r) := by
      intro r
      have := hf r
      cases hm : m r with
      | ret a => exact ⟨.ok a, rfl, rfl⟩
      | fail e => exact ⟨.error e, rfl, rfl⟩
      | coll op k => rw [hm] at this; cases this
    choose o ho ho' using hdone
    exact ⟨o, .done ho, h.of_eq fun r => (ho' r).symm⟩
  | cons t ts ih =>
    by_cases hall : ∀ r, ∃ e, m r = .fail e
    · choose e he using hall
      refine ⟨fun r => .error (e r), .done fun r => by rw [he r]; rfl, ?_⟩
      refine h.of_eq fun r => ?_
      rw [he r]; rfl
    · push Not at hall
      obtain ⟨r0, hr0⟩ := hall
      have hcoll : ∃ op k', m r0 = .coll op k' := by
        have := hf r0
        cases hm : m r0 with
        | ret a => rw [hm] at this; cases this
        | fail e => exact absurd hm (hr0 e)
        | coll op k' => exact ⟨op, k', rfl⟩
      obtain ⟨op0, k0, h0⟩ := hcoll
      cases h with
      | done hd => have := hd r0; beta_reduce at this; rw [h0] at this; cases this
      | step ops k' tag hn hW htag hrest =>
        have hm : ∀ r, ∃ kk, m r = .coll (ops r) kk ∧ k' r = fun o => kk o >>= k r := by
          intro r
          have := hW r
          beta_reduce at this
          have hfr := hf r
          cases hm : m r with
          | ret a => rw [hm] at hfr; cases hfr
          | fail e => rw [hm] at this; cases this
          | coll op kk =>
            rw [hm] at this
            change Prog.coll op (fun o => (kk o).bind (k r)) = _ at this
            injection this with h1 h2
            exact ⟨kk, by rw [h1], h2.symm⟩
        choose kk hkk hk' using hm
        have hrest' : Runs (fun r => Prog.resume (kk r) (deliver ops r) >>= k r) out := by
          refine hrest.of_eq fun r => ?_
          rw [hk' r]
          cases deliver ops r <;> rfl
        have hfol : ∀ r, Follows (Prog.resume (kk r) (deliver ops r)) ts := by
          intro r
          have hfr := hf r
          rw [hkk r] at hfr
          cases hfr with
          | coll _ _ _ hh =>
            cases deliver ops r with
            | ok o => exact hh o
            | error e => exact .fail e _
        obtain ⟨o, ho1, ho2⟩ := ih hfol hrest'
        exact ⟨o, .step ops kk tag hn hkk htag ho1, ho2⟩

/-- The same when nobody raises. -/
theorem Runs.bind_inv_ok {m : Fin n → Prog K α} {k : Fin n → α → Prog K β}
    {v : Fin n → β} {ts : List (Kind × Nat)} (hf : ∀ r, Follows (m r) ts)
    (h : Runs (fun r => m r >>= k r) (fun r => .ok (v r))) :
    ∃ o : Fin n → α, Runs m (fun r => .ok (o r)) ∧ Runs (fun r => k r (o r)) (fun r => .ok (v r)) := by
  obtain ⟨o, h1, h2⟩ := h.bind_inv hf
  have : ∀ r, ∃ a, o r = .ok a := by
    intro r
    cases ho : o r with
    | ok a => exact ⟨a, rfl⟩
    | error e =>
      have := h2.fail_out (r := r) (e := e) (by rw [ho]; rfl)
      cases this
  choose a ha using this
  have hoe : o = fun r => .ok (a r) := funext ha
  subst hoe
  exact ⟨a, h1, h2⟩

theorem Runs.lift_inv {f : Fin n → Except PyErr α} {v : Fin n → α}
    (h : Runs (K := K) (fun r => Prog.lift (f r)) (fun r => .ok (v r))) (r : Fin n) :
    f r = .ok (v r) := by
  have := Runs.unique h (Runs.liftE f)
  exact (congrFun this r).symm

theorem Runs.lift_bind_inv {f : Fin n → Except PyErr α} {k : Fin n → α → Prog K β}
    {v : Fin n → β} (h : Runs (fun r => Prog.lift (f r) >>= k r) (fun r => .ok (v r))) :
    ∃ o : Fin n → α, (∀ r, f r = .ok (o r)) ∧ Runs (fun r => k r (o r)) (fun r => .ok (v r)) := by
  obtain ⟨o, h1, h2⟩ := h.bind_inv_ok (ts := []) fun r => .lift _
  exact ⟨o, h1.lift_inv, h2⟩

theorem Runs.call_bind_inv {ops : Fin n → Op K} {k : Fin n → Obj K → Prog K β} {v : Fin n → β}
    (h : Runs (fun r => Prog.call (ops r) >>= k r) (fun r => .ok (v r))) (tag : Kind × Nat)
    (htag : ∀ r, (ops r).tag = tag) :
    ∃ o : Fin n → Obj K, Runs (fun r => Prog.call (ops r)) (fun r => .ok (o r)) ∧
      Runs (fun r => k r (o r)) (fun r => .ok (v r)) :=
  h.bind_inv_ok (ts := [tag]) fun r => by rw [← htag r]; exact .call (ops r)

/-! ### Schedules -/

/-- The invariant of a world whose processes follow the same collectives. -/
def Aligned (c : Config K α n) : Prop :=
  ∃ ts, ∀ r, Follows (c r).1 ts ∧ ((c r).2 = true → ∃ op k, (c r).1 = .coll op k)

theorem aligned_step {c c' : Config K α n} (h : Raised c ∨ Aligned c) (hs : SStep c c') :
    Raised c' ∨ Aligned c' := by
  cases hs with
  | enter r op k hr =>
    have h1 : ∀ s, (Function.update c r (Prog.coll op k, true) s).1 = (c s).1 := by
      intro s
      by_cases hsr : s = r
      · subst hsr; simp [hr]
      · simp [hsr]
    rcases h with ⟨s, e, hf⟩ | ⟨ts, hts⟩
    · exact .inl ⟨s, e, by rw [h1, hf]⟩
    · refine .inr ⟨ts, fun s => ⟨by rw [h1]; exact (hts s).1, ?_⟩⟩
      intro h2
      rw [h1]
      by_cases hsr : s = r
      · subst hsr; rw [hr]; exact ⟨op, k, rfl⟩
      · simp only [ne_eq, hsr, not_false_eq_true, Function.update_of_ne] at h2
        exact (hts s).2 h2
  | sync ops k tag hn hc htag =>
    rcases h with ⟨s, e, hf⟩ | ⟨ts, hts⟩
    · rw [hc s] at hf; cases hf
    · by_cases hd : ∃ r e, deliver ops r = .error e
      · obtain ⟨r, e, hd⟩ := hd
        exact .inl ⟨r, e, by simp [hd, Prog.resume]⟩
      · push Not at hd
        have hok : ∀ r, ∃ o, deliver ops r = .ok o := by
          intro r
          cases h : deliver ops r with
          | ok o => exact ⟨o, rfl⟩
          | error e => exact absurd h (hd r e)
        cases ts with
        | nil =>
          have := (hts ⟨0, hn⟩).1
          rw [hc] at this; cases this
        | cons t ts =>
          refine .inr ⟨ts, fun r => ⟨?_, by simp⟩⟩
          have := (hts r).1
          rw [hc r] at this
          obtain ⟨o, ho⟩ := hok r
          simp only [ho, Prog.resume]
          cases this with
          | coll _ _ _ hh => exact hh o

theorem aligned_reaches {c c' : Config K α n} (h : Raised c ∨ Aligned c) (hs : Reaches c c') :
    Raised c' ∨ Aligned c' := by
  induction hs with
  | refl => exact h
  | tail _ hstep ih => exact aligned_step ih hstep

theorem aligned_progress {c : Config K α n} (hn : 0 < n) (h : Aligned c) :
    Raised c ∨ AllReturned c ∨ ∃ c', SStep c c' := by
  by_cases hr : Raised c
  · exact .inl hr
  obtain ⟨ts, hts⟩ := h
  have hnf : ∀ r e, (c r).1 ≠ .fail e := fun r e he => hr ⟨r, e, he⟩
  cases ts with
  | nil =>
    refine .inr (.inl fun r => ?_)
    have := (hts r).1
    cases hm : (c r).1 with
    | ret a => exact ⟨a, rfl⟩
    | fail e => exact absurd hm (hnf r e)
    | coll op k => rw [hm] at this; cases this
  | cons t ts =>
    refine .inr (.inr ?_)
    have hc : ∀ r, ∃ op k, (c r).1 = .coll op k ∧ op.tag = t := by
      intro r
      have := (hts r).1
      cases hm : (c r).1 with
      | ret a => rw [hm] at this; cases this
      | fail e => exact absurd hm (hnf r e)
      | coll op k => rw [hm] at this; cases this; exact ⟨op, k, rfl, rfl⟩
    choose ops k hck htag using hc
    by_cases hall : ∀ r, (c r).2 = true
    · exact ⟨_, .sync ops k t hn (fun r => Prod.ext (hck r) (hall r)) htag⟩
    · push Not at hall
      obtain ⟨r, hr⟩ := hall
      exact ⟨_, .enter r (ops r) (k r) (Prod.ext (hck r) (by simpa using hr))⟩

/-- Steps of the scheduler do not change where the world ends up. -/
theorem runs_step {c c' : Config K α n} (hs : SStep c c') {out : Fin n → Except PyErr α}
    (h : Runs (fun r => (c r).1) out) : Runs (fun r => (c' r).1) out := by
  cases hs with
  | enter r op k hr =>
    refine h.of_eq fun s => ?_
    by_cases hsr : s = r
    · subst hsr; simp [hr]
    · simp [hsr]
  | sync ops k tag hn hc htag =>
    cases h with
    | done hd => have := hd ⟨0, hn⟩; beta_reduce at this; rw [hc] at this; cases this
    | step ops' k' tag' hn' hW _ h2 =>
      have he : ops' = ops ∧ k' = k := by
        constructor <;> funext r <;> have := hW r <;> beta_reduce at this <;>
          rw [hc r] at this <;> injection this with h1 h2
        · exact h1.symm
        · exact h2.symm
      obtain ⟨rfl, rfl⟩ := he
      exact h2

theorem runs_reaches {c c' : Config K α n} (hs : Reaches c c') {out : Fin n → Except PyErr α}
    (h : Runs (fun r => (c r).1) out) : Runs (fun r => (c' r).1) out := by
  induction hs with
  | refl => exact h
  | tail _ hstep ih => exact runs_step hstep ih

/-- How many processes have not entered. -/
def outside (c : Config K α n) : Nat := (Finset.univ.filter fun r => (c r).2 = false).card

theorem outside_enter {c : Config K α n} {r : Fin n} {p : Prog K α} (h : (c r).2 = false) :
    outside (Function.update c r (p, true)) < outside c := by
  unfold outside
  apply Finset.card_lt_card
  refine Finset.ssubset_iff_of_subset ?_ |>.2 ⟨r, by simp [h], by simp⟩
  intro s hs
  by_cases hsr : s = r
  · subst hsr; simp at hs
  · simpa [hsr] using hs

/-- Every schedule ends. -/
theorem sched_acc (hn : 0 < n) (c : Config K α n) : Acc (fun c' c : Config K α n => SStep c c') c := by
  generalize hp : (c ⟨0, hn⟩).1 = p
  induction p generalizing c with
  | ret a =>
    generalize hm : outside c = m
    induction m using Nat.strong_induction_on generalizing c with
    | _ m ih =>
      refine Acc.intro _ fun c' hs => ?_
      cases hs with
      | enter r op k hr =>
        refine ih _ (hm ▸ outside_enter (by rw [hr])) _ ?_ rfl
        by_cases h0 : (⟨0, hn⟩ : Fin n) = r
        · subst h0; rw [hr] at hp; cases hp
        · simp [h0, hp]
      | sync ops k tag _ hc _ => rw [hc] at hp; cases hp
  | fail e =>
    generalize hm : outside c = m
    induction m using Nat.strong_induction_on generalizing c with
    | _ m ih =>
      refine Acc.intro _ fun c' hs => ?_
      cases hs with
      | enter r op k hr =>
        refine ih _ (hm ▸ outside_enter (by rw [hr])) _ ?_ rfl
        by_cases h0 : (⟨0, hn⟩ : Fin n) = r
        · subst h0; rw [hr] at hp; cases hp
        · simp [h0, hp]
      | sync ops k tag _ hc _ => rw [hc] at hp; cases hp
  | coll op0 k0 ihp =>
    generalize hm : outside c = m
    induction m using Nat.strong_induction_on generalizing c with
    | _ m ih =>
      refine Acc.intro _ fun c' hs => ?_
      cases hs with
      | enter r op k hr =>
        refine ih _ (hm ▸ outside_enter (by rw [hr])) _ ?_ rfl
        by_cases h0 : (⟨0, hn⟩ : Fin n) = r
        · subst h0; rw [hr] at hp; simp [hp]
        · simp [h0, hp]
      | sync ops k tag _ hc _ =>
        have h0 := hc ⟨0, hn⟩
        rw [Prod.ext_iff] at h0
        rw [hp] at h0
        injection h0.1 with _ hk
        cases hd : deliver ops ⟨0, hn⟩ with
        | ok o => exact ihp o _ (by simp only [hd, Prog.resume, hk])
        | error e =>
          -- the process has raised: only `enter` moves remain
          clear ih ihp
          have hf : (Prog.resume (k ⟨0, hn⟩) (deliver ops ⟨0, hn⟩)) = .fail e := by
            rw [hd]; rfl
          generalize hc' : (fun r => (Prog.resume (k r) (deliver ops r), false) :
            Config K α n) = c'
          have hp' : (c' ⟨0, hn⟩).1 = .fail e := by rw [← hc']; exact hf
          clear hc'
          generalize hm' : outside c' = m'
          induction m' using Nat.strong_induction_on generalizing c' with
          | _ m' ih' =>
            refine Acc.intro _ fun c'' hs => ?_
            cases hs with
            | enter r op k hr =>
              refine ih' _ (hm' ▸ outside_enter (by rw [hr])) _ ?_ rfl
              by_cases h0 : (⟨0, hn⟩ : Fin n) = r
              · subst h0; rw [hr] at hp'; cases hp'
              · simp [h0, hp']
            | sync ops k tag _ hc _ => rw [hc] at hp'; cases hp'

theorem no_infinite {c : Config K α n} (hn : 0 < n) :
    ¬ ∃ f : Nat → Config K α n, f 0 = c ∧ ∀ i, SStep (f i) (f (i + 1)) := by
  rintro ⟨f, _, hf⟩
  have : ∀ c, Acc (fun c' c : Config K α n => SStep c c') c → ∀ i, f i ≠ c := by
    intro c h
    induction h with
    | intro c _ ih =>
      rintro i rfl
      exact ih _ (hf i) (i + 1) rfl
  exact this (f 0) (sched_acc hn _) 0 rfl

end Verif.Py
