import Verif.Lemmas.LbfgsNan
import Verif.Lemmas.LbfgsPy
import Verif.Props.LbfgsPy
import Verif.Py.Float
/-! C142: an objective that becomes undefined. -/
namespace Verif.Lbfgs
open Verif.Spec.LbfgsNan
open Verif.Py (Flt)

variable {n : Nat} {σ F : Type} [Zero F] [One F] [Add F] [Sub F] [Mul F] [Div F] [Neg F] [NatCast F]
  [LT F] [LE F] [DecidableLT F] [DecidableLE F]

/-- The NaN of floating-point numbers is one. -/
theorem isNan_flt : IsNan (.nan : Flt) where
  add_left a := by cases a <;> rfl
  add_right a := by cases a <;> rfl
  sub_left a := by cases a <;> rfl
  sub_right a := by cases a <;> rfl
  mul_left a := by cases a <;> rfl
  mul_right a := by cases a <;> rfl
  div_left a := by cases a <;> rfl
  div_right a := by cases a <;> rfl
  neg := rfl
  lt_left a := by cases a <;> exact Bool.false_ne_true
  lt_right a := by cases a <;> exact Bool.false_ne_true
  le_left a := by cases a <;> exact Bool.false_ne_true
  le_right a := by cases a <;> exact Bool.false_ne_true

/-- C142 (for the default line search, and for every penalised problem; false for the other searches, see
    `C142_negation`).  No iteration with a NaN value is reported, and the final point is the starting point or has a
    value that is not NaN.  If the value at the starting point is NaN, the call makes no iteration and leaves the point
    as it is, with an error unless the gradient passes the convergence test. -/
theorem C142_partial {ν : F} (hν : IsNan ν) (env : Env n σ F) (p : Par F) (x0 : Fin n → F) (cb : σ) (o : Out n F)
    (h : Lbfgs env p x0 cb o) (hp : feq p.c 0 → p.linesearch = LS_MORETHUENTE) :
    (∀ r ∈ o.reports, r.fx ≠ ν) ∧ (o.x = x0 ∨ value env (fillEnd n p) o.x ≠ ν) ∧
      (value env (fillEnd n p) x0 = ν → o.x = x0 ∧ o.reports = [] ∧ (o.ret < 0 ∨ o.ret = ALREADY_MINIMIZED)) := by
  cases h with
  | @rejected code hc =>
    refine ⟨by simp, .inl rfl, fun _ => ⟨rfl, rfl, .inl ?_⟩⟩
    exact check_neg p code hc
  | already => exact ⟨by simp, .inl rfl, fun _ => ⟨rfl, rfl, .inr rfl⟩⟩
  | run _ _ hr =>
    obtain ⟨e1, e2, _, _⟩ := fillEnd_fields (n := n) p
    have hp' : feq (fillEnd n p).c 0 → (fillEnd n p).linesearch = LS_MORETHUENTE := by rw [e1, e2]; exact hp
    obtain ⟨h1, h2, h3⟩ := start_value env (fillEnd n p) x0 cb
    have := run_value hν hp' hr (by rw [h1, h2]) (by rw [h3]; simp)
    rw [h1, h2, h3] at this
    exact ⟨this.1, this.2.1, fun e => by
      obtain ⟨a, b, c⟩ := this.2.2 e
      exact ⟨b, c, .inl a⟩⟩

/-- C142.  So `fmin_lbfgs` with its default line search and no penalty only returns the starting point or a point with a
    value. -/
theorem C142_default {ν : F} (hν : IsNan ν) (c : Callables n σ F) (a : Args F) (x0 : Fin n → F) (cb : σ)
    (ha : a.lineSearch = "default" ∨ a.lineSearch = "morethuente") (h0 : ¬ 0 < a.par.c) (hc : feq a.par.c 0)
    (x : Fin n → F) (w : Option String) (tr : List (Fin n → F)) (h : Fmin c a x0 cb (.returned x w) tr) :
    x = x0 ∨ (c.env.eval x).1 ≠ ν := by
  generalize hres : (Res.returned x w : Res n F) = res at h
  cases h with
  | bad => cases hres
  | @run p o hp ho =>
    have hp' : p.linesearch = LS_MORETHUENTE ∧ p.c = a.par.c := by
      simp only [fminPar, chooseSearch, h0, false_and, if_false] at hp
      rw [if_neg (not_not.2 hc.2)] at hp
      rcases ha with e | e <;> rw [e] at hp
      · rw [show lineSearchAlgo.lookup "default" = some "LBFGS_LINESEARCH_DEFAULT" by decide +kernel] at hp
        obtain rfl := Except.ok.inj hp
        exact ⟨rfl, rfl⟩
      · rw [show lineSearchAlgo.lookup "morethuente" = some "LBFGS_LINESEARCH_MORETHUENTE" by decide +kernel] at hp
        obtain rfl := Except.ok.inj hp
        exact ⟨rfl, rfl⟩
    have hx : o.x = x := by
      unfold finish at hres
      split_ifs at hres
      · exact (Res.returned.inj hres).1.symm
      · cases hm : message o.ret with
        | none => rw [hm] at hres; cases hres
        | some m => rw [hm] at hres; exact (Res.returned.inj hres).1.symm
      · cases hm : message o.ret with
        | none => rw [hm] at hres; cases hres
        | some m => rw [hm] at hres; cases hres
    have := (C142_partial hν c.env p x0 cb o ho (fun _ => hp'.1)).2.1
    rw [value, (fillEnd_fields (n := n) p).1, hp'.2, if_pos hc, hx] at this
    exact this

/-- C142.  The backtracking searches accept a trial with NaN value and gradient at once. -/
theorem C142_accepts {ν : F} (hν : IsNan ν) (env : Env n σ F) (p : Par F) (hn : 0 < n) (hm : 0 < p.maxLinesearch)
    (x : Fin n → F) (f : F) (g s : Fin n → F) (stp : F) (hs : ¬ stp ≤ 0) (hd : ¬ 0 < vecdot g s)
    (hu : Undefined env ν fun i => x i + stp * s i) :
    let r := backtracking env p x f g s stp
    r.ret = 1 ∧ r.f = ν ∧ r.x = (fun i => x i + stp * s i) ∧ r.trials.length = 1 := by
  rw [backtracking_accepts hν env p ⟨0, hn⟩ hm x f g s hs hd hu]
  exact ⟨rfl, rfl, rfl, rfl⟩

/-- C142.  With a backtracking search, no limit on the iterations (the default) and a progress callable that does not
    stop it, a call whose starting point has NaN value and gradient never ends, and neither does one that tries such a
    point first in some iteration. -/
theorem C142_never_ends {ν : F} (hν : IsNan ν) (env : Env n σ F) (p : Par F) (x0 : Fin n → F) (cb : σ)
    (hchk : check n p = none) (hc : feq p.c 0) (hl : p.linesearch ≠ LS_MORETHUENTE) (hi : p.maxIterations = 0)
    (hn : 0 < n) (hm : 0 < p.maxLinesearch) (hu : Undefined env ν fun _ => ν) (hsq : env.sqrt ν = ν)
    (hpr : NeverCancels env) (h1 : ¬ (1 : F) ≤ 0)
    (hx : Undefined env ν x0 ∨ ∃ s, Reach env p x0 cb s ∧ ¬ s.step ≤ 0 ∧ ¬ 0 < vecdot s.g s.d ∧
      Undefined env ν fun i => s.x i + s.step * s.d i) :
    ¬ ∃ o, Lbfgs env p x0 cb o := by
  obtain ⟨e1, e2, e3, e4⟩ := fillEnd_fields (n := n) p
  rw [← e1] at hc
  rw [← e2] at hl
  rw [← e3] at hm
  rw [← e4] at hi
  have hns : ¬ already env (fillEnd n p) (start env (fillEnd n p) x0 cb) := by
    rcases hx with hx | ⟨s, hs, _⟩
    · exact (lost_start hν ⟨0, hn⟩ hc hsq hx cb).2
    · exact not_already_of_reach hs
  rintro ⟨o, ho⟩
  cases ho with
  | rejected hc' => rw [hchk] at hc'; cases hc'
  | already _ ha => exact hns ha
  | run _ _ hr =>
    rcases hx with hx | ⟨s, hs, h2, h3, h4⟩
    · exact lost_not_run hν ⟨0, hn⟩ hc hl hm hu hsq hpr h1 hi hr (lost_start hν ⟨0, hn⟩ hc hsq hx cb).1
    · have hrs := run_of_reach hs hr
      obtain ⟨s', h', hs'⟩ := lost_next hν ⟨0, hn⟩ hc hl hm hsq hpr h1 h2 h3 h4 hi
      cases hrs with
      | done hd => rw [h'] at hd; cases hd
      | next hd hr' =>
        rw [h'] at hd; cases hd
        exact lost_not_run hν ⟨0, hn⟩ hc hl hm hu hsq hpr h1 hi hr' hs'

/-- C142.  With a limit, such a call from a starting point with NaN value and gradient returns a vector of NaN, with the
    warning about the limit. -/
theorem C142_limited {ν : F} (hν : IsNan ν) (env : Env n σ F) (p : Par F) (x0 : Fin n → F) (cb : σ)
    (hchk : check n p = none) (hc : feq p.c 0) (hl : p.linesearch ≠ LS_MORETHUENTE)
    (hn : 0 < n) (hm : 0 < p.maxLinesearch) (hu : Undefined env ν fun _ => ν) (hsq : env.sqrt ν = ν)
    (hpr : NeverCancels env) (h1 : ¬ (1 : F) ≤ 0) (hx : Undefined env ν x0) (o : Out n F) (h : Lbfgs env p x0 cb o) :
    finish o = .returned (fun _ => ν) (some "The algorithm routine reaches the maximum number of iterations.") := by
  obtain ⟨e1, e2, e3, e4⟩ := fillEnd_fields (n := n) p
  rw [← e1] at hc
  rw [← e2] at hl
  rw [← e3] at hm
  cases h with
  | rejected hc' => rw [hchk] at hc'; cases hc'
  | already _ ha => exact absurd ha (lost_start hν ⟨0, hn⟩ hc hsq hx cb).2
  | run _ _ hr =>
    obtain ⟨ha, hb⟩ := lost_limited hν ⟨0, hn⟩ hc hl hm hu hsq hpr h1 hr (lost_start hν ⟨0, hn⟩ hc hsq hx cb).1
    unfold finish
    rw [ha, hb]
    have : message ERR_MAXIMUMITERATION = some "The algorithm routine reaches the maximum number of iterations." := by
      decide +kernel
    rw [this, if_neg (by decide +kernel), if_pos (by decide +kernel)]
    rfl

/-! ### Witnesses -/

/-- `x` for nonnegative `x`, undefined elsewhere. -/
def exNan : Callables 1 Unit Flt where
  sqrt v := match v with | .fin q => .fin (Rat.sqrt q) | v => v
  f x := if 0 ≤ x 0 then (.ok (x 0), fun _ => 1) else (.ok .nan, fun _ => .nan)
  progress s _ _ _ _ _ _ _ _ := (.ok none, s)

/-- The defaults of `fmin_lbfgs`, with a line search and a limit on the iterations. -/
def exNanArgs (ls : String) (limit : Int) : Args Flt :=
  ⟨⟨10, .fin (1/100000), 0, .fin 0, limit, 0, 20, .fin (1/100000000000000000000), .fin 100000000000000000000,
    .fin (1/10000), .fin (9/10), .fin (9/10), .fin (1/10000000000000000), .fin 0, 0, -1⟩, ls⟩

/-- C142 is false for the other searches: with each of them `fmin_lbfgs` never returns for this function from 1/2. -/
theorem C142_negation : ∀ ls ∈ ["armijo", "wolfe", "strongwolfe"],
    ¬ ∃ res tr, Fmin exNan (exNanArgs ls 0) (fun _ => .fin (1/2)) () res tr := by
  intro ls hls
  rintro ⟨res, tr, h⟩
  have key : ∀ k ∈ [(1 : Int), 2, 3],
      ¬ ∃ o, Lbfgs exNan.env { (exNanArgs "" 0).par with linesearch := k } (fun _ => .fin (1/2)) () o := by
    intro k hk
    have hchk : check 1 { (exNanArgs "" 0).par with linesearch := k } = none := by revert k; decide +kernel
    refine C142_never_ends isNan_flt _ _ _ _ hchk (show feq (0 : Flt) 0 by decide +kernel)
      (by rintro (rfl : k = 0); revert hk; decide) rfl (by decide)
      (show (0 : Int) < 20 by decide) ?_ rfl
      (fun _ _ _ _ _ _ _ _ _ => rfl) (by decide +kernel)
      (.inr ⟨start exNan.env (fillEnd 1 { (exNanArgs "" 0).par with linesearch := k }) (fun _ => .fin (1/2)) (),
        .start hchk ?_, ?_, ?_, ?_⟩)
    · unfold Undefined; decide +kernel
    · clear hchk; revert k; decide +kernel
    · clear hchk; revert k; decide +kernel
    · clear hchk; revert k; decide +kernel
    · unfold Undefined; clear hchk; revert k; decide +kernel
  cases h with
  | bad hb =>
    simp only [List.mem_cons, List.not_mem_nil, or_false] at hls
    rcases hls with rfl | rfl | rfl <;> cases hb
  | @run p o hp ho =>
    simp only [List.mem_cons, List.not_mem_nil, or_false] at hls
    rcases hls with rfl | rfl | rfl <;> obtain rfl := Except.ok.inj hp
    · exact key 1 (by decide) ⟨o, ho⟩
    · exact key 2 (by decide) ⟨o, ho⟩
    · exact key 3 (by decide) ⟨o, ho⟩

/-- With the default search the same call ends: it shortens the step until it is small. -/
example : ∃ o, Lbfgs exNan.env { (exNanArgs "default" 0).par with linesearch := 0 } (fun _ => .fin (1/2)) () o ∧
    (o.ret, o.x 0, o.reports.length) = (-998, .fin (1/2), 0) :=
  lbfgs_of_fuel _ _ _ _ _ 3 _ (by decide +kernel) (by decide +kernel) (by decide +kernel)

/-- `x` with penalty for `x` at least 1/4, undefined elsewhere: the step to zero is halved, and the result is where the
    function is defined. -/
example : ∃ o, Lbfgs (⟨exNan.sqrt, fun x => if .fin (1/4) ≤ x 0 then (x 0, fun _ => 1) else (.nan, fun _ => .nan),
      fun s _ _ _ _ _ _ _ _ => (0, s)⟩ : Env 1 Unit Flt)
    { (exNanArgs "wolfe" 0).par with linesearch := 2, c := .fin 1 } (fun _ => .fin (1/2)) () o ∧
    (o.ret, o.x 0, o.reports.map (·.fx), o.trials.reverse.map (· 0) |>.take 4) =
      (-998, .fin (1/4), [.fin (1/2)], [.fin (1/2), 0, 0, .fin (1/4)]) :=
  lbfgs_of_fuel _ _ _ _ _ 4 _ (by decide +kernel) (by decide +kernel) (by decide +kernel)

/-- The Armijo search accepts -1/2. -/
example : (fun r : LsOut 1 Flt => (r.ret, r.f, r.x 0, r.trials.length)) (backtracking exNan.env
    { (exNanArgs "armijo" 0).par with linesearch := 1 } (fun _ => .fin (1/2)) (.fin (1/2)) (fun _ => 1)
    (fun _ => .fin (-1)) 1) = (1, .nan, .fin (-1/2), 1) := by decide +kernel

/-- Three iterations from -1 give NaN and the warning. -/
example : ∃ o, Lbfgs exNan.env { (exNanArgs "armijo" 3).par with linesearch := 1 } (fun _ => .fin (-1)) () o ∧
    (o.ret, o.x 0, o.reports.length) = (-997, .nan, 3) :=
  lbfgs_of_fuel _ _ _ _ _ 5 _ (by decide +kernel) (by decide +kernel) (by decide +kernel)

end Verif.Lbfgs
