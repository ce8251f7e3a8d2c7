import Mathlib.Data.Rat.Sqrt
import Mathlib.Tactic.Linarith
import Mathlib.Tactic.Ring
import Mathlib.Tactic.NormNum
import Mathlib.Tactic.Positivity
import Verif.Lemmas.Owlqn
/-! Helper lemmas for the line searches. -/
namespace Verif.Lbfgs
open Finset Spec
variable {n : Nat} {σ K : Type} [Field K] [LinearOrder K] [IsStrictOrderedRing K]

/-- What a successful backtracking search guarantees. -/
structure BtGood (env : Env n σ K) (p : Par K) (xp s : Fin n → K) (finit dginit : K)
    (r : LsOut n K) : Prop where
  pos : 0 < r.step
  pt : ∀ i, r.x i = xp i + r.step * s i
  val : env.eval r.x = (r.f, r.g)
  armijo : r.f ≤ finit + r.step * (p.ftol * dginit)
  wolfe : p.linesearch ≠ LS_ARMIJO → p.wolfe * dginit ≤ dot r.g s
  strong : p.linesearch ≠ LS_ARMIJO → p.linesearch ≠ LS_WOLFE → dot r.g s ≤ -p.wolfe * dginit

/-- The conditions of the backtracking search on its last trial. -/
def btCond (p : Par K) (s : Fin n → K) (finit dginit : K) (r : LsOut n K) : Prop :=
  r.f ≤ finit + r.step * (p.ftol * dginit) ∧
    (p.linesearch ≠ LS_ARMIJO → p.wolfe * dginit ≤ dot r.g s) ∧
    (p.linesearch ≠ LS_ARMIJO → p.linesearch ≠ LS_WOLFE → dot r.g s ≤ -p.wolfe * dginit)

theorem btLoop_spec (env : Env n σ K) (p : Par K) (xp s : Fin n → K) (finit dginit : K) :
    ∀ (rem count : Nat) (stp : K) (tr : List (Fin n → K)), 0 < stp → 0 < rem →
      (p.maxLinesearch = (count + rem : Nat)) →
      let r := btLoop env p xp s finit dginit rem count stp tr
      tr.length < r.trials.length ∧ r.trials.length ≤ tr.length + rem ∧
      r.trials.head? = some r.x ∧
      (0 ≤ r.ret → r.ret + tr.length = count + r.trials.length ∧
        BtGood env p xp s finit dginit r) ∧
      (r.ret < 0 → (r.ret = ERR_MINIMUMSTEP ∨ r.ret = ERR_MAXIMUMSTEP ∨ r.ret = ERR_MAXIMUMLINESEARCH) ∧
        env.eval r.x = (r.f, r.g) ∧ ¬ btCond p s finit dginit r) := by
  intro rem
  induction rem with
  | zero => intro count stp tr _ h; exact absurd h (lt_irrefl _)
  | succ rem ih =>
    intro count stp tr hs _ hm
    have hagain : ∀ (w : K), 0 < w →
        ¬ btCond p s finit dginit ⟨0, vecadd xp s stp, (env.eval (vecadd xp s stp)).1,
          (env.eval (vecadd xp s stp)).2, stp, []⟩ →
        let r := (if stp < p.minStep then (⟨ERR_MINIMUMSTEP, vecadd xp s stp,
            (env.eval (vecadd xp s stp)).1, (env.eval (vecadd xp s stp)).2, stp,
            vecadd xp s stp :: tr⟩ : LsOut n K)
          else if p.maxStep < stp then ⟨ERR_MAXIMUMSTEP, vecadd xp s stp,
            (env.eval (vecadd xp s stp)).1, (env.eval (vecadd xp s stp)).2, stp, vecadd xp s stp :: tr⟩
          else if p.maxLinesearch ≤ (count : Int) + 1 then ⟨ERR_MAXIMUMLINESEARCH, vecadd xp s stp,
            (env.eval (vecadd xp s stp)).1, (env.eval (vecadd xp s stp)).2, stp, vecadd xp s stp :: tr⟩
          else btLoop env p xp s finit dginit rem (count + 1) (stp * w) (vecadd xp s stp :: tr))
        tr.length < r.trials.length ∧ r.trials.length ≤ tr.length + (rem + 1) ∧
        r.trials.head? = some r.x ∧
        (0 ≤ r.ret → r.ret + tr.length = count + r.trials.length ∧
          BtGood env p xp s finit dginit r) ∧
        (r.ret < 0 → (r.ret = ERR_MINIMUMSTEP ∨ r.ret = ERR_MAXIMUMSTEP ∨
          r.ret = ERR_MAXIMUMLINESEARCH) ∧ env.eval r.x = (r.f, r.g) ∧
            ¬ btCond p s finit dginit r) := by
      intro w hw hbad
      have hlast : ∀ e : Int, e < 0 →
          (e = ERR_MINIMUMSTEP ∨ e = ERR_MAXIMUMSTEP ∨ e = ERR_MAXIMUMLINESEARCH) →
          let r : LsOut n K := ⟨e, vecadd xp s stp, (env.eval (vecadd xp s stp)).1,
            (env.eval (vecadd xp s stp)).2, stp, vecadd xp s stp :: tr⟩
          tr.length < r.trials.length ∧ r.trials.length ≤ tr.length + (rem + 1) ∧
          r.trials.head? = some r.x ∧
          (0 ≤ r.ret → r.ret + tr.length = count + r.trials.length ∧
            BtGood env p xp s finit dginit r) ∧
          (r.ret < 0 → (r.ret = ERR_MINIMUMSTEP ∨ r.ret = ERR_MAXIMUMSTEP ∨
            r.ret = ERR_MAXIMUMLINESEARCH) ∧ env.eval r.x = (r.f, r.g) ∧
              ¬ btCond p s finit dginit r) := by
        intro e he hm
        refine ⟨by simp, by simp, rfl, fun h => absurd he (not_lt.2 h), fun _ => ⟨hm, rfl, hbad⟩⟩
      dsimp only
      split_ifs with h1 h2 h3
      · exact hlast _ (by decide) (.inl rfl)
      · exact hlast _ (by decide) (.inr (.inl rfl))
      · exact hlast _ (by decide) (.inr (.inr rfl))
      · have hrem : 0 < rem := by
          by_contra h0
          have : rem = 0 := by omega
          subst this
          apply h3
          rw [hm]
          push_cast
          omega
        have := ih (count + 1) (stp * w) (vecadd xp s stp :: tr) (mul_pos hs hw) hrem
          (by rw [hm]; congr 1; omega)
        refine ⟨by have := this.1; simp at this ⊢; omega, by have := this.2.1; simp at this ⊢; omega,
          this.2.2.1, fun h => ?_, this.2.2.2.2⟩
        have h' := this.2.2.2.1 h
        exact ⟨by have := h'.1; simp at this ⊢; omega, h'.2⟩
    simp only [btLoop, vecdot_eq]
    have h12 : (0 : K) < const 1 2 := by simp [const]
    have h21 : (0 : K) < const 21 10 := by simp [const]
    by_cases h1 : finit + stp * (p.ftol * dginit) < (env.eval (vecadd xp s stp)).1
    · rw [if_pos h1]
      exact hagain _ h12 fun h => absurd h.1 (not_le.2 h1)
    · rw [if_neg h1]
      have h1 := not_lt.1 h1
      have hret : ∀ c : Nat, ¬ ((c : Int) + 1 < 0) := by intro c; omega
      by_cases h2 : p.linesearch = LS_ARMIJO
      · rw [if_pos h2]
        refine ⟨by simp, by simp, rfl, fun _ => ⟨by simp; omega, hs, fun _ => rfl, rfl, h1,
          fun h => absurd h2 h, fun h => absurd h2 h⟩, fun h => absurd h (hret _)⟩
      · rw [if_neg h2]
        by_cases h3 : dot (env.eval (vecadd xp s stp)).2 s < p.wolfe * dginit
        · rw [if_pos h3]
          exact hagain _ h21 fun h => absurd (h.2.1 h2) (not_le.2 h3)
        · rw [if_neg h3]
          have h3 := not_lt.1 h3
          by_cases h4 : p.linesearch = LS_WOLFE
          · rw [if_pos h4]
            refine ⟨by simp, by simp, rfl, fun _ => ⟨by simp; omega, hs, fun _ => rfl, rfl, h1,
              fun _ => h3, fun _ h => absurd h4 h⟩, fun h => absurd h (hret _)⟩
          · rw [if_neg h4]
            by_cases h5 : -p.wolfe * dginit < dot (env.eval (vecadd xp s stp)).2 s
            · rw [if_pos h5]
              exact hagain _ h12 fun h => absurd (h.2.2 h2 h4) (not_le.2 h5)
            · rw [if_neg h5]
              refine ⟨by simp, by simp, rfl, fun _ => ⟨by simp; omega, hs, fun _ => rfl, rfl, h1,
                fun _ => h3, fun _ _ => not_lt.1 h5⟩, fun h => absurd h (hret _)⟩

theorem owlqnLoop_spec (env : Env n σ K) (p : Par K) (xp pg wp s : Fin n → K) (finit : K) :
    ∀ (rem count : Nat) (stp : K) (tr : List (Fin n → K)), 0 < stp → 0 < rem →
      (p.maxLinesearch = (count + rem : Nat)) →
      let r := owlqnLoop env p xp pg wp s finit rem count stp tr
      tr.length < r.trials.length ∧ r.trials.length ≤ tr.length + rem ∧
      r.trials.head? = some r.x ∧
      r.f = (env.eval r.x).1 + p.c * l1 p.start p.stop r.x ∧ r.g = (env.eval r.x).2 ∧
      0 < r.step ∧ r.x = project (vecadd xp s r.step) wp p.start p.stop ∧
      (0 ≤ r.ret → r.ret + tr.length = count + r.trials.length ∧
        r.f ≤ finit + p.ftol * dot (fun i => r.x i - xp i) pg) ∧
      (r.ret < 0 → (r.ret = ERR_MINIMUMSTEP ∨ r.ret = ERR_MAXIMUMSTEP ∨ r.ret = ERR_MAXIMUMLINESEARCH) ∧
        finit + p.ftol * dot (fun i => r.x i - xp i) pg < r.f) := by
  intro rem
  induction rem with
  | zero => intro count stp tr _ h; exact absurd h (lt_irrefl _)
  | succ rem ih =>
    intro count stp tr hs _ hm
    have hv : ∀ x : Fin n → K, (vsum fun i => (x i - xp i) * pg i) = dot (fun i => x i - xp i) pg :=
      fun x => vsum_eq _
    simp only [owlqnLoop, hv, x1norm_eq]
    have hret : ¬ ((count : Int) + 1 < 0) := by omega
    by_cases h1 : (env.eval (project (vecadd xp s stp) wp p.start p.stop)).1 +
        l1 p.start p.stop (project (vecadd xp s stp) wp p.start p.stop) * p.c ≤ finit +
        p.ftol * dot (fun i => project (vecadd xp s stp) wp p.start p.stop i - xp i) pg
    · rw [if_pos h1]
      exact ⟨by simp, by simp, rfl, by rw [mul_comm p.c], rfl, hs, rfl,
        fun _ => ⟨by simp; omega, h1⟩, fun h => absurd h hret⟩
    · rw [if_neg h1]
      have h1 := not_le.1 h1
      split_ifs with h2 h3 h4
      · exact ⟨by simp, by simp, rfl, by rw [mul_comm p.c], rfl, hs, rfl,
          fun h => absurd (show (0 : Int) ≤ ERR_MINIMUMSTEP from h) (by decide), fun _ => ⟨.inl rfl, h1⟩⟩
      · exact ⟨by simp, by simp, rfl, by rw [mul_comm p.c], rfl, hs, rfl,
          fun h => absurd (show (0 : Int) ≤ ERR_MAXIMUMSTEP from h) (by decide), fun _ => ⟨.inr (.inl rfl), h1⟩⟩
      · exact ⟨by simp, by simp, rfl, by rw [mul_comm p.c], rfl, hs, rfl,
          fun h => absurd (show (0 : Int) ≤ ERR_MAXIMUMLINESEARCH from h) (by decide), fun _ => ⟨.inr (.inr rfl), h1⟩⟩
      · have hrem : 0 < rem := by
          by_contra h0
          have : rem = 0 := by omega
          subst this
          apply h4
          rw [hm]
          push_cast
          omega
        have := ih (count + 1) (stp * const 1 2) (project (vecadd xp s stp) wp p.start p.stop :: tr)
          (mul_pos hs (by simp [const])) hrem (by rw [hm]; congr 1; omega)
        refine ⟨by have := this.1; simp at this ⊢; omega, by have := this.2.1; simp at this ⊢; omega,
          this.2.2.1, this.2.2.2.1, this.2.2.2.2.1, this.2.2.2.2.2.1, this.2.2.2.2.2.2.1,
          fun h => ?_, this.2.2.2.2.2.2.2.2⟩
        have h' := this.2.2.2.2.2.2.2.1 h
        exact ⟨by have := h'.1; simp at this ⊢; omega, h'.2⟩

theorem newInterval_x (v : Interval K) (ft dt : K) :
    (newInterval v ft dt).x = v.x ∨ (newInterval v ft dt).x = v.t := by
  unfold newInterval
  split_ifs <;> simp

/-- The best step of the interval after an update is the old one or the trial. -/
theorem updateTrial_x (sqrt : K → K) (v : Interval K) (ft dt tmin tmax : K) :
    (updateTrial sqrt v ft dt tmin tmax).2.x = v.x ∨ (updateTrial sqrt v ft dt tmin tmax).2.x = v.t := by
  unfold updateTrial
  split_ifs
  · exact .inl rfl
  · exact .inl rfl
  · exact .inl rfl
  · exact newInterval_x v ft dt

theorem mtInterval_x (sqrt : K → K) (v : Interval K) (stage1 : Bool)
    (ftest1 dgtest f dg stmin stmax : K) :
    (mtInterval sqrt v stage1 ftest1 dgtest f dg stmin stmax).2.x = v.x ∨
      (mtInterval sqrt v stage1 ftest1 dgtest f dg stmin stmax).2.x = v.t := by
  unfold mtInterval
  split_ifs
  · exact updateTrial_x ..
  · exact updateTrial_x ..

theorem mtShrink_x (v : Interval K) (w : K) : (mtShrink v w).x = v.x := by
  unfold mtShrink
  split_ifs <;> rfl

theorem mtClip_nonneg (p : Par K) (v : Interval K) (count : Nat) (uinfo : Int) (stmin stmax : K)
    (hmin : 0 ≤ p.minStep) (hmax : p.minStep ≤ p.maxStep) (hx : 0 ≤ v.x) :
    0 ≤ mtClip p v count uinfo stmin stmax := by
  have h0 : 0 ≤ (if v.t < p.minStep then p.minStep else v.t) := by
    split_ifs with h
    · exact hmin
    · exact hmin.trans (not_lt.1 h)
  have h1 : 0 ≤ (if p.maxStep < (if v.t < p.minStep then p.minStep else v.t) then p.maxStep
      else (if v.t < p.minStep then p.minStep else v.t)) := by
    by_cases h : p.maxStep < (if v.t < p.minStep then p.minStep else v.t)
    · rw [if_pos h]; exact hmin.trans hmax
    · rw [if_neg h]; exact h0
  unfold mtClip
  dsimp only
  by_cases h : (v.brackt = true ∧ (((if p.maxStep < (if v.t < p.minStep then p.minStep else v.t) then
      p.maxStep else (if v.t < p.minStep then p.minStep else v.t)) ≤ stmin ∨ stmax ≤
      (if p.maxStep < (if v.t < p.minStep then p.minStep else v.t) then p.maxStep
      else (if v.t < p.minStep then p.minStep else v.t))) ∨ p.maxLinesearch ≤ (count : Int) + 1 ∨
      uinfo ≠ 0)) ∨ (v.brackt = true ∧ stmax - stmin ≤ p.xtol * stmax)
  · rw [if_pos h]; exact hx
  · rw [if_neg h]; exact h1

/-- What a successful More-Thuente search guarantees. -/
structure MtGood (env : Env n σ K) (p : Par K) (xp s : Fin n → K) (finit dginit : K)
    (r : LsOut n K) : Prop where
  nonneg : 0 ≤ r.step
  armijo : r.f ≤ finit + r.step * (p.ftol * dginit)
  strong : |dot r.g s| ≤ p.gtol * (-dginit)

theorem mtLoop_spec (env : Env n σ K) (p : Par K) (xp s : Fin n → K) (finit dginit : K)
    (hmin : 0 ≤ p.minStep) (hmax : p.minStep ≤ p.maxStep) :
    ∀ (rem count : Nat) (v : Interval K) (stage1 : Bool) (width prevWidth : K) (uinfo : Int)
      (tr : List (Fin n → K)), 0 ≤ v.x → 0 < rem → (p.maxLinesearch = (count + rem : Nat)) →
      let r := mtLoop env p xp s finit dginit rem count v stage1 width prevWidth uinfo tr
      tr.length < r.trials.length ∧ r.trials.length ≤ tr.length + rem ∧
      r.trials.head? = some r.x ∧ (∀ i, r.x i = xp i + r.step * s i) ∧ env.eval r.x = (r.f, r.g) ∧
      (0 ≤ r.ret → r.ret + tr.length = count + r.trials.length ∧ r.ret < p.maxLinesearch ∧
        MtGood env p xp s finit dginit r) ∧
      (r.ret < 0 → r.ret = ERR_ROUNDING ∨ r.ret = ERR_MAXIMUMSTEP ∨ r.ret = ERR_MINIMUMSTEP ∨
        r.ret = ERR_WIDTH ∨ r.ret = ERR_MAXIMUMLINESEARCH) := by
  intro rem
  induction rem with
  | zero => intro count v stage1 width prevWidth uinfo tr _ h; exact absurd h (lt_irrefl _)
  | succ rem ih =>
    intro count v stage1 width prevWidth uinfo tr hx _ hm
    simp only [mtLoop, vecdot_eq, fabs_eq]
    generalize hst : mtBounds v = sb
    obtain ⟨stmin, stmax⟩ := sb
    dsimp only
    have hs := mtClip_nonneg p v count uinfo stmin stmax hmin hmax hx
    generalize mtClip p v count uinfo stmin stmax = stp at hs ⊢
    have herr : ∀ e : Int, e < 0 → (e = ERR_ROUNDING ∨ e = ERR_MAXIMUMSTEP ∨ e = ERR_MINIMUMSTEP ∨
        e = ERR_WIDTH ∨ e = ERR_MAXIMUMLINESEARCH) →
        let r : LsOut n K := ⟨e, vecadd xp s stp, (env.eval (vecadd xp s stp)).1,
          (env.eval (vecadd xp s stp)).2, stp, vecadd xp s stp :: tr⟩
        tr.length < r.trials.length ∧ r.trials.length ≤ tr.length + (rem + 1) ∧
        r.trials.head? = some r.x ∧ (∀ i, r.x i = xp i + r.step * s i) ∧ env.eval r.x = (r.f, r.g) ∧
        (0 ≤ r.ret → r.ret + tr.length = count + r.trials.length ∧ r.ret < p.maxLinesearch ∧
          MtGood env p xp s finit dginit r) ∧
        (r.ret < 0 → r.ret = ERR_ROUNDING ∨ r.ret = ERR_MAXIMUMSTEP ∨ r.ret = ERR_MINIMUMSTEP ∨
          r.ret = ERR_WIDTH ∨ r.ret = ERR_MAXIMUMLINESEARCH) := by
      intro e he hm
      exact ⟨by simp, by simp, rfl, fun _ => rfl, rfl, fun h => absurd he (not_lt.2 h), fun _ => hm⟩
    have hret : ¬ ((count : Int) + 1 < 0) := by omega
    by_cases c1 : v.brackt = true ∧ ((stp ≤ stmin ∨ stmax ≤ stp) ∨ uinfo ≠ 0)
    · rw [if_pos c1]; exact herr _ (by decide) (.inl rfl)
    rw [if_neg c1]
    by_cases c2 : feq stp p.maxStep ∧ (env.eval (vecadd xp s stp)).1 ≤ finit + stp * (p.ftol * dginit) ∧
      dot (env.eval (vecadd xp s stp)).2 s ≤ p.ftol * dginit
    · rw [if_pos c2]; exact herr _ (by decide) (.inr (.inl rfl))
    rw [if_neg c2]
    by_cases c3 : feq stp p.minStep ∧ (finit + stp * (p.ftol * dginit) < (env.eval (vecadd xp s stp)).1 ∨
      p.ftol * dginit ≤ dot (env.eval (vecadd xp s stp)).2 s)
    · rw [if_pos c3]; exact herr _ (by decide) (.inr (.inr (.inl rfl)))
    rw [if_neg c3]
    by_cases c4 : v.brackt = true ∧ stmax - stmin ≤ p.xtol * stmax
    · rw [if_pos c4]; exact herr _ (by decide) (.inr (.inr (.inr (.inl rfl))))
    rw [if_neg c4]
    by_cases c5 : p.maxLinesearch ≤ (count : Int) + 1
    · rw [if_pos c5]; exact herr _ (by decide) (.inr (.inr (.inr (.inr rfl))))
    rw [if_neg c5]
    by_cases c6 : (env.eval (vecadd xp s stp)).1 ≤ finit + stp * (p.ftol * dginit) ∧
      |dot (env.eval (vecadd xp s stp)).2 s| ≤ p.gtol * (-dginit)
    · rw [if_pos c6]
      exact ⟨by simp, by simp, rfl, fun _ => rfl, rfl,
        fun _ => ⟨by simp; omega, not_le.1 c5, hs, c6.1, c6.2⟩, fun h => absurd h hret⟩
    rw [if_neg c6]
    have hrem : 0 < rem := by
      by_contra h0
      have : rem = 0 := by omega
      subst this
      apply c5
      rw [hm]
      push_cast
      omega
    generalize hst : (if stage1 = true ∧ (env.eval (vecadd xp s stp)).1 ≤ finit + stp * (p.ftol * dginit) ∧
      min2 p.ftol p.gtol * dginit ≤ dot (env.eval (vecadd xp s stp)).2 s then false else stage1) = st
    have hux := mtInterval_x env.sqrt { v with t := stp } st (finit + stp * (p.ftol * dginit))
      (p.ftol * dginit) (env.eval (vecadd xp s stp)).1 (dot (env.eval (vecadd xp s stp)).2 s) stmin stmax
    generalize mtInterval env.sqrt { v with t := stp } st (finit + stp * (p.ftol * dginit))
      (p.ftol * dginit) (env.eval (vecadd xp s stp)).1 (dot (env.eval (vecadd xp s stp)).2 s) stmin stmax
      = u at hux ⊢
    have hx' : 0 ≤ (mtShrink u.2 prevWidth).x := by
      rw [mtShrink_x]
      rcases hux with h | h <;> rw [h]
      · exact hx
      · exact hs
    have := ih (count + 1) (mtShrink u.2 prevWidth) st
      (if u.2.brackt = true then |u.2.y - u.2.x| else width)
      (if u.2.brackt = true then width else prevWidth) u.1 (vecadd xp s stp :: tr) hx' hrem
      (by rw [hm]; congr 1; omega)
    refine ⟨by have := this.1; simp at this ⊢; omega, by have := this.2.1; simp at this ⊢; omega,
      this.2.2.1, this.2.2.2.1, this.2.2.2.2.1, fun h => ?_, this.2.2.2.2.2.2⟩
    have h' := this.2.2.2.2.2.1 h
    exact ⟨by have := h'.1; simp at this ⊢; omega, h'.2⟩

end Verif.Lbfgs
