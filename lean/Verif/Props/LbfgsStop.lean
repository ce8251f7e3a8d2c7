import Verif.Lemmas.LbfgsStop
import Verif.Props.LbfgsPy
/-!
The minimiser stops at the first iteration at which one of its tests holds (C103).
-/
namespace Verif.Lbfgs
open Finset Spec

variable {n : Nat} {σ K : Type} [Field K] [LinearOrder K] [IsStrictOrderedRing K]

/-- C103.  With a progress callable that returns 0 and parameters that are not rejected, let `v` be the
    objective values after 0, 1, 2, … iterations.  No iteration before the last one had a small gradient
    or a stalled objective, and neither had the last one when the result is an error (the iteration limit,
    a failed search).  Code 0 means that the last gradient is small.  Code 1 means that it is not and that
    the objective stalled (or vanished): it changed by less than the fraction `delta` within the last
    `past` iterations. -/
theorem C103_first (env : Env n σ K) (hp : ∀ cb x g a b c d k l, (env.progress cb x g a b c d k l).1 = 0)
    (p : Par K) (x0 : Fin n → K) (cb : σ) (o : Out n K) (h : Lbfgs env p x0 cb o) (ht : o.reports ≠ [])
    (stop : Int) (hs : stop = if p.stop < 0 then (n : Int) else p.stop) :
    let v := penalised (fun x => (env.eval x).1) p.c p.start stop x0 :: o.reports.reverse.map (·.fx)
    let small : Report n K → Prop := fun q => q.gnorm ≤ p.epsilon * max 1 q.xnorm
    (∀ k, k < o.reports.length ∨ (k = o.reports.length ∧ o.ret < 0) → ¬ Stalled p.past p.delta v k) ∧
    (∀ q ∈ o.reports.tail, ¬ small q) ∧ (∀ q ∈ o.reports.head?, o.ret ≠ 0 → ¬ small q) ∧
    (o.ret = 0 → ∃ q ∈ o.reports.head?, small q) ∧
    (o.ret = 1 → ∃ q ∈ o.reports.head?, q.fx ≠ 0 → Stalled p.past p.delta v o.reports.length) := by
  intro v small
  cases h with
  | rejected => exact absurd rfl ht
  | already => exact absurd rfl ht
  | run hc _ hr =>
    have := run_stop hp hr (pastMem_start env (fillEnd n p) x0 cb)
    unfold obj Flat at this
    rw [fillEnd_eq, ← hs] at this
    exact ⟨this.1, this.2.1, this.2.2.1, this.2.2.2.2, this.2.2.2.1⟩

/-- `x⁴ + 1` from 2, values about 17, 16, 4.1, 2.2, 1.4: with `past = 2` and `delta = 3` the test holds for
    the first time after four iterations. -/
example : ∃ o, Lbfgs (⟨fun v => v, fun x => (x 0 ^ 4 + 1, fun _ => 4 * x 0 ^ 3),
      fun s _ _ _ _ _ _ _ _ => (0, s)⟩ : Env 1 Unit ℚ)
    ⟨5, 1/100000, 2, 3, 0, 1, 20, 1/100000000, 100000000, 1/10000, 9/10, 9/10, 0, 0, 0, -1⟩ (fun _ => 2) () o ∧
    (o.ret, o.reports.length) = (1, 4) :=
  lbfgs_of_fuel _ _ _ _ _ 5 _ (by decide +kernel) (by decide +kernel) (by decide +kernel)

end Verif.Lbfgs
