import Verif.Model.Estimator
import Verif.Spec.Estimator
import Verif.Lemmas.WarmStart
import Verif.Lemmas.Exec
import Verif.Spec.Fit
import Verif.Props.Fit
import Verif.Props.Grid
/-! Histories of fits and seeds. -/
namespace Verif.Estimator
open Verif.Py Verif.Fit Verif.Intersection Verif.Spec.Fit
variable {D K G S M RP : Type}

theorem sweep_same' {env : Env K G S M RP} {s t : S} (h : Same env s t) (regs : List RP)
    (tr : List Nat) :
    (∃ e, sweep env s regs tr = .error e ∧ sweep env t regs tr = .error e) ∨
    ∃ rows s' t', sweep env s regs tr = .ok (rows, s') ∧ sweep env t regs tr = .ok (rows, t') ∧
      Same env s' t' := by
  cases regs with
  | nil => exact .inr ⟨[], s, t, rfl, rfl, h⟩
  | cons rp regs =>
    have he : sweep env s (rp :: regs) tr = sweep env t (rp :: regs) tr := by
      simp only [sweep, h rp tr]
    cases hs : sweep env t (rp :: regs) tr with
    | error e => exact .inl ⟨e, he.trans hs, rfl⟩
    | ok p => exact .inr ⟨p.1, p.2, p.2, he.trans hs, rfl, fun _ _ => rfl⟩

theorem selLoop_forgets {env : Env K G S M RP} (hF : Forgets env) (size : Nat) (keys : List Nat)
    (boots : List Split) (tasks : List Nat) (cur : Option Nat) (s t : S)
    (h : ∀ b, cur = some b → Same env s t) :
    selLoop env size keys boots tasks cur s = selLoop env size keys boots tasks cur t := by
  induction tasks generalizing cur s t with
  | nil => rfl
  | cons a tasks ih =>
    simp only [selLoop]
    cases env.selRegs size a with
    | error e => rfl
    | ok regs =>
      simp only
      cases lookup keys boots (env.selBoot size a) with
      | error e => rfl
      | ok sp =>
        simp only
        have hs : Same env (if cur ≠ some (env.selBoot size a) then env.reset s else s)
            (if cur ≠ some (env.selBoot size a) then env.reset t else t) := by
          by_cases hc : cur ≠ some (env.selBoot size a)
          · rw [if_pos hc, if_pos hc]; exact fun rp tr => hF s t rp tr
          · rw [if_neg hc, if_neg hc]; exact h _ (not_not.1 hc)
        rcases sweep_same' hs regs sp.train with ⟨e, h1, h2⟩ | ⟨rows, s', t', h1, h2, h3⟩
        · rw [h1, h2]
        · rw [h1, h2]
          simp only
          rw [ih _ s' t' fun _ _ => h3]

theorem selection_forgets [Zero K] [DecidableEq K] {env : Env K G S M RP} (hF : Forgets env)
    (size rank : Nat) (boots : List Split) (s t : S) :
    selection env size rank boots s = selection env size rank boots t := by
  unfold selection
  simp only
  rw [selLoop_forgets hF size _ boots _ none s t (fun b hb => by cases hb)]

theorem fit_forgets [LinearOrder K] [Field K] {env : Env K G S M RP} (hF : Forgets env)
    (size rank : Nat) (g : G) (s t : S) : Fit.fit env size rank g s = Fit.fit env size rank g t := by
  unfold Fit.fit
  congr 1
  funext p
  rw [selection_forgets hF size rank p.1 s t]

theorem fit_regParams [LinearOrder K] [Field K] {c : Cls D K G S M RP} {o o' : Obj K G S RP} {d : D}
    (hy : c.constY d = false) (h : c.fit o d = .ok o') :
    o'.regParams = some (c.getRegParams o.cache d).1 ∧ o'.cache = (c.getRegParams o.cache d).2 := by
  unfold Cls.fit at h
  simp only [hy, Bool.false_eq_true, if_false] at h
  revert h
  cases (Fit.fit (c.env d (c.getRegParams o.cache d).1) 1 0 o.gen o.sel).outcome with
  | none => intro h; cases h
  | some r =>
    cases r with
    | error e => intro h; cases h
    | ok st =>
      intro h
      injection h with h
      subst h
      exact ⟨rfl, rfl⟩

theorem fits_cache [LinearOrder K] [Field K] {c : Cls D K G S M RP} (hc : c.caches = true)
    {l : List RP} (ds : List D) {o o' : Obj K G S RP} (ho : o.cache = some l)
    (h : c.fits o ds = .ok o') : o'.cache = some l := by
  induction ds generalizing o with
  | nil => simp only [Cls.fits, Except.ok.injEq] at h; rw [← h, ho]
  | cons d ds ih =>
    simp only [Cls.fits] at h
    cases h1 : c.fit o d with
    | error e => rw [h1] at h; cases h
    | ok o1 =>
      rw [h1] at h
      refine ih ?_ h
      cases hy : c.constY d with
      | false => rw [(fit_regParams hy h1).2]; simp [Cls.getRegParams, hc, ho]
      | true =>
        unfold Cls.fit at h1
        simp only [hy, if_true] at h1
        split at h1
        · cases h1
        · split at h1
          · cases h1
          · injection h1 with h1; rw [← h1]; exact ho

theorem drawList_withSeeds (seed : Nat → G) (env : Env K G S M RP) (est : Bool) (k : Nat) (g : G) :
    drawList (withSeeds seed env) est k (.generator g) =
      (drawList env est k g).map fun q => (q.1, .generator q.2) := by
  induction k generalizing g with
  | zero => rfl
  | succ k ih =>
    simp only [drawList]
    have : (withSeeds seed env).draw est (.generator g) =
        (match env.draw est g with
          | .error e => .error e
          | .ok (sp, g') => .ok (sp, .generator g')) := rfl
    rw [this]
    cases env.draw est g with
    | error e => rfl
    | ok p =>
      simp only [ih]
      cases drawList env est k p.2 with
      | error e => rfl
      | ok q => rfl

theorem sweep_withSeeds (seed : Nat → G) (env : Env K G S M RP) (s : S) (regs : List RP)
    (tr : List Nat) : sweep (withSeeds seed env) s regs tr = sweep env s regs tr := by
  induction regs generalizing s with
  | nil => rfl
  | cons rp regs ih =>
    simp only [sweep, ih]
    rfl

theorem selLoop_withSeeds (seed : Nat → G) (env : Env K G S M RP) (size : Nat) (keys : List Nat)
    (boots : List Split) (tasks : List Nat) (cur : Option Nat) (s : S) :
    selLoop (withSeeds seed env) size keys boots tasks cur s =
      selLoop env size keys boots tasks cur s := by
  induction tasks generalizing cur s with
  | nil => rfl
  | cons t ts ih =>
    simp only [selLoop, ih, sweep_withSeeds]
    rfl

theorem selection_withSeeds [Zero K] [DecidableEq K] (seed : Nat → G) (env : Env K G S M RP)
    (size rank : Nat) (boots : List Split) (s : S) :
    selection (withSeeds seed env) size rank boots s = selection env size rank boots s := by
  unfold selection
  simp only [selLoop_withSeeds]
  rfl

theorem estimation_withSeeds [LinearOrder K] [Field K] (seed : Nat → G) (env : Env K G S M RP)
    (size rank : Nat) (B : BArr) (k : Nat) (boots : List Split) :
    estimation (withSeeds seed env) size rank B k boots = estimation env size rank B k boots := rfl

end Verif.Estimator
