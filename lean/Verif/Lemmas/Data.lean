import Verif.Lemmas.WarmStart
import Verif.Model.Data
/-! Helper lemmas: which rows influence what. -/
namespace Verif.Fit
open Verif.Py Verif.MpiUtils Verif.Intersection

variable {K G S M RP Row : Type}

theorem sweep_data {raw : Raw Row K S M RP} {base : Env K G S M RP} {D D' : Nat → Row}
    {tr : List Nat} (hD : tr.map D = tr.map D') (s : S) (regs : List RP) :
    sweep (raw.env base D) s regs tr = sweep (raw.env base D') s regs tr := by
  induction regs generalizing s with
  | nil => rfl
  | cons rp regs ih =>
    have e : (raw.env base D).fitSel s rp tr = (raw.env base D').fitSel s rp tr := by
      simp only [Raw.env, hD]
    simp only [sweep, e]
    cases (raw.env base D').fitSel s rp tr with
    | error e => rfl
    | ok s' =>
      simp only [ih]
      rfl

theorem selLoop_data {raw : Raw Row K S M RP} {base : Env K G S M RP} {D D' : Nat → Row}
    (hF : ∀ s t rp rows, raw.fitSel (base.reset s) rp rows = raw.fitSel (base.reset t) rp rows)
    {size : Nat} {keys : List Nat} {boots : List Split} {b : Nat} {sp : Split}
    (hb : boots[b]? = some sp) (hD : sp.train.map D = sp.train.map D')
    {tasks : List Nat} {cur : Option Nat} {s s' : S} {rows rows' : List (List K)}
    (hcur : cur = some b → Same (raw.env base D) s s')
    (h : selLoop (raw.env base D) size keys boots tasks cur s = .ok rows)
    (h' : selLoop (raw.env base D') size keys boots tasks cur s' = .ok rows') (i t : Nat)
    (hi : tasks[i]? = some t) (ht : base.selBoot size t = b) : rows[i]? = rows'[i]? := by
  induction tasks generalizing cur s s' rows rows' i with
  | nil => simp at hi
  | cons u us ih =>
    obtain ⟨regs, sp1, p, row, rest, a1, a2, a3, a4, a5, rfl⟩ := selLoop_cons h
    obtain ⟨regs', sp2, p', row', rest', b1, b2, b3, b4, b5, rfl⟩ := selLoop_cons h'
    have hreg : regs = regs' := by
      have b1' : (raw.env base D).selRegs size u = .ok regs' := b1
      rw [a1] at b1'; injection b1'
    subst hreg
    have hsel : ∀ D, (raw.env base D).selBoot size u = base.selBoot size u := fun _ => rfl
    rw [hsel] at a2 a3 a5 b2 b3 b5
    by_cases hub : base.selBoot size u = b
    · rw [hub, hb] at a2 b2
      injection a2 with a2
      injection b2 with b2
      subst a2
      subst b2
      rw [← sweep_data hD] at b3
      have hsame : Same (raw.env base D)
          (if cur ≠ some (base.selBoot size u) then (raw.env base D).reset s else s)
          (if cur ≠ some (base.selBoot size u) then (raw.env base D').reset s' else s') := by
        split
        · exact fun rp tr => hF _ _ rp _
        · rename_i hc
          have hc : cur = some b := by rw [← hub]; exact not_not.1 hc
          exact hcur hc
      obtain ⟨e1, e2⟩ := sweep_same hsame a3 b3
      cases i with
      | zero =>
        have b4' : assignSel (raw.env base D) size p'.1 = .ok row' := b4
        have : row = row' := by rw [e1, b4'] at a4; injection a4 with a4; exact a4.symm
        simp [this]
      | succ i =>
        simp only [List.getElem?_cons_succ] at hi ⊢
        exact ih (fun _ => e2) a5 b5 i hi
    · cases i with
      | zero =>
        simp only [List.getElem?_cons_zero, Option.some.injEq] at hi
        subst hi
        exact absurd ht hub
      | succ i =>
        simp only [List.getElem?_cons_succ] at hi ⊢
        refine ih (fun hc => ?_) a5 b5 i hi
        injection hc with hc
        exact absurd hc hub

end Verif.Fit
