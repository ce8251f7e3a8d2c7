import Verif.Model.PoissonLbfgs
import Verif.Lemmas.Poisson
import Verif.Props.LbfgsLoop
import Verif.Props.LbfgsDir
import Verif.Lemmas.LogisticL1
/-!
Facts about the L-BFGS fit of the Poisson model.
-/
namespace Verif.Poisson
open Verif.Py Verif.Scaling Verif.Lbfgs Verif.Lbfgs.Spec Verif.Spec.Poisson

variable {n p : Nat}

/-- A sum over the vector, by parts. -/
theorem sum_parts (a : LArgs) (φ : Fin (a.size p) → ℝ) :
    ∑ i, φ i = ∑ j, coefPart a φ j + (interceptPart a φ).getD 0 := by
  obtain ⟨_, _, _, _, fi, _, _⟩ := a
  cases fi with
  | false =>
    simp only [interceptPart, Bool.false_eq_true, dif_neg, not_false_eq_true, Option.getD_none, add_zero]
    rfl
  | true =>
    simp only [interceptPart, dif_pos, Option.getD_some]
    exact Fin.sum_univ_castSucc (n := p) φ

theorem coefPart_join {F : Type} (a : LArgs) (c : Fin p → F) (b : F) : coefPart a (joinParts a c b) = c := by
  funext j; simp [coefPart, joinParts]

theorem interceptPart_join {F : Type} (a : LArgs) (c : Fin p → F) (b : F) :
    interceptPart a (joinParts a c b) = if a.fi then some b else none := by
  unfold interceptPart joinParts
  by_cases h : a.fi = true <;> simp [h]

theorem join_parts (a : LArgs) (x : Fin (a.size p) → ℝ) :
    joinParts a (coefPart a x) ((interceptPart a x).getD 0) = x := by
  funext i
  unfold joinParts coefPart interceptPart
  split_ifs with h h'
  · rfl
  · simp only [Option.getD_some]
    congr 1
    ext
    have := i.isLt
    simp only [LArgs.size, h', if_true] at this
    simp; omega
  · exfalso
    have := i.isLt
    simp only [LArgs.size, h'] at this
    simp at this
    omega

/-- The smooth part on parts. -/
theorem flat_value [NeZero n] (a : LArgs) (X : Fin n → Fin p → ℝ) (y sw : Fin n → ℝ) (x : Fin (a.size p) → ℝ) :
    (flatLoss a X y sw x).1 =
      smoothLoss X y sw (a.alpha * (1 - a.l1)) ((interceptPart a x).getD 0) (coefPart a x) :=
  by
  unfold flatLoss
  simp only [lossGrad, smoothLoss, dot]
  have : ∀ i, sw i * (Real.exp ((interceptPart a x).getD 0 + ∑ j, X i j * coefPart a x j) -
      y i * ((interceptPart a x).getD 0 + ∑ j, X i j * coefPart a x j)) =
      -(sw i * (y i * ((interceptPart a x).getD 0 + ∑ j, X i j * coefPart a x j) -
        Real.exp ((interceptPart a x).getD 0 + ∑ j, X i j * coefPart a x j))) := fun i => by ring
  rw [Finset.sum_congr rfl fun i _ => this i, Finset.sum_neg_distrib]
  simp only [pow_two]
  ring

theorem exp_tangent (s t : ℝ) : Real.exp s + Real.exp s * (t - s) ≤ Real.exp t := by
  have := Real.add_one_le_exp (t - s)
  have h := mul_le_mul_of_nonneg_left this (Real.exp_pos s).le
  rw [← Real.exp_add] at h
  have e : s + (t - s) = t := by ring
  rw [e] at h
  linarith

/-- The objective is convex. -/
theorem flat_convex [NeZero n] (a : LArgs) (X : Fin n → Fin p → ℝ) (y sw : Fin n → ℝ) (hsw : ∀ i, 0 ≤ sw i)
    (hl2 : 0 ≤ a.alpha * (1 - a.l1)) :
    ConvexGrad (fun x => (flatLoss a X y sw x).1) (fun x => (flatLoss a X y sw x).2) := by
  intro x x'
  have hn : (0 : ℝ) < n := by exact_mod_cast Nat.pos_of_ne_zero (NeZero.ne n)
  set l2 := a.alpha * (1 - a.l1) with hl2d
  set c := coefPart a x with hc
  set c' := coefPart a x' with hc'
  set b := (interceptPart a x).getD 0 with hb
  set b' := (interceptPart a x').getD 0 with hb'
  set e : Fin n → ℝ := fun i => b + ∑ j, X i j * c j with he
  set e' : Fin n → ℝ := fun i => b' + ∑ j, X i j * c' j with he'
  have hd : Verif.Lbfgs.Spec.dot (flatLoss a X y sw x).2 (fun i => x' i - x i) =
      ∑ j, (-(∑ i, X i j * (sw i * (y i - Real.exp (e i)))) / n + l2 * c j) * (c' j - c j) +
        -((∑ i, sw i * (y i - Real.exp (e i))) / n) * (b' - b) := by
    unfold Verif.Lbfgs.Spec.dot
    rw [sum_parts a]
    congr 1
    · refine Finset.sum_congr rfl fun j _ => ?_
      simp only [coefPart, flatLoss, joinParts, lossGrad, Fin.is_lt, dif_pos, dot, he, hb, hc]
      rfl
    · rw [hb, hb']
      unfold interceptPart
      split_ifs with h
      · simp only [Option.getD_some, flatLoss, joinParts, lt_irrefl, dif_neg, not_false_eq_true, lossGrad,
          interceptPart, h, dif_pos, Option.map_some, dot, he, hb, hc]
      · simp
  rw [hd]
  simp only [flat_value]
  unfold smoothLoss
  have hsq : ∀ j, c j ^ 2 + 2 * (c j * (c' j - c j)) ≤ c' j ^ 2 := fun j => by nlinarith [sq_nonneg (c' j - c j)]
  have h1 : ∀ i, sw i * (Real.exp (e i) - y i * e i) - sw i * (y i - Real.exp (e i)) * (e' i - e i) ≤
      sw i * (Real.exp (e' i) - y i * e' i) := by
    intro i
    have := mul_le_mul_of_nonneg_left (exp_tangent (e i) (e' i)) (hsw i)
    linarith
  have hS := Finset.sum_le_sum fun i (_ : i ∈ Finset.univ) => h1 i
  have hQ := Finset.sum_le_sum fun j (_ : j ∈ Finset.univ) => hsq j
  rw [Finset.sum_sub_distrib] at hS
  rw [Finset.sum_add_distrib, ← Finset.mul_sum] at hQ
  have hlin : ∑ j, (-(∑ i, X i j * (sw i * (y i - Real.exp (e i)))) / n + l2 * c j) * (c' j - c j) +
        -((∑ i, sw i * (y i - Real.exp (e i))) / n) * (b' - b) =
      -(1 / n) * ∑ i, sw i * (y i - Real.exp (e i)) * (e' i - e i) + l2 * ∑ j, c j * (c' j - c j) := by
    have h2 : ∀ i, sw i * (y i - Real.exp (e i)) * (e' i - e i) =
        sw i * (y i - Real.exp (e i)) * (b' - b) + ∑ j, X i j * (sw i * (y i - Real.exp (e i))) * (c' j - c j) := by
      intro i
      have : e' i - e i = (b' - b) + ∑ j, X i j * (c' j - c j) := by
        simp only [he, he', mul_sub, Finset.sum_sub_distrib]; ring
      rw [this, mul_add, Finset.mul_sum]
      congr 1
      exact Finset.sum_congr rfl fun j _ => by ring
    simp only [h2, Finset.sum_add_distrib]
    rw [Finset.sum_comm, ← Finset.sum_mul]
    simp only [← Finset.sum_mul, add_mul, Finset.sum_add_distrib, mul_add, Finset.mul_sum]
    have h3 : ∀ j, -(∑ i, X i j * (sw i * (y i - Real.exp (e i)))) / (n : ℝ) * (c' j - c j) =
        -(1 / (n : ℝ)) * ((∑ i, X i j * (sw i * (y i - Real.exp (e i)))) * (c' j - c j)) := fun j => by ring
    simp only [h3]
    have h4 : ∀ j, l2 * c j * (c' j - c j) = l2 * (c j * (c' j - c j)) := fun j => by ring
    simp only [h4]
    ring
  rw [hlin]
  have k1 := mul_le_mul_of_nonneg_left hS (by positivity : (0 : ℝ) ≤ 1 / n)
  have k2 := mul_le_mul_of_nonneg_left hQ (by linarith : (0 : ℝ) ≤ l2 / 2)
  rw [mul_sub] at k1
  rw [mul_add] at k2
  linarith

/-- The penalised objective on parts. -/
theorem pen_parts [NeZero n] (a : LArgs) (X : Fin n → Fin p → ℝ) (y sw : Fin n → ℝ) (x : Fin (a.size p) → ℝ) :
    penalised (fun x => (flatLoss a X y sw x).1) (a.alpha * a.l1) 0 (p : Int) x =
      smoothLoss X y sw (a.alpha * (1 - a.l1)) ((interceptPart a x).getD 0) (coefPart a x) +
        a.alpha * a.l1 * ∑ j, |coefPart a x j| := by
  unfold penalised
  simp only [flat_value]
  congr 2
  unfold l1
  rw [Finset.sum_filter, sum_parts a]
  have h1 : ∀ j, coefPart a (fun i => if Penalised 0 (p : Int) i then |x i| else 0) j = |coefPart a x j| := by
    intro j
    exact if_pos ⟨by simp, by simp⟩
  have h2 : (interceptPart a (fun i => if Penalised 0 (p : Int) i then |x i| else 0)).getD 0 = 0 := by
    unfold interceptPart
    split_ifs with h
    · exact if_neg (by unfold Penalised; simp)
    · rfl
  simp only [h1, h2, add_zero]

/-- The vector in the solver's units for coefficients and an intercept in the units of the data. -/
noncomputable def toSolver (a : LArgs) (X : Fin n → Fin p → ℝ) (c : Fin p → ℝ) (b : ℝ) : (Fin p → ℝ) × ℝ :=
  if a.std then
    (fun j => (standardScaler true X).scale j * c j, b + ∑ j, (standardScaler true X).mean j * c j)
  else (c, b)

theorem scale_eq (X : Fin n → Fin p → ℝ) [NeZero n] (j : Fin p) : (standardScaler true X).scale j = colSd X j := by
  have hn : (0 : ℝ) < n := by exact_mod_cast Nat.pos_of_ne_zero (NeZero.ne n)
  unfold standardScaler colSd
  have hm : Verif.Utils.mean (fun i => X i j) = colMean X j := by unfold Verif.Utils.mean colMean; rfl
  have hv : Verif.Utils.mean (fun i => (X i j - colMean X j) ^ 2) = (∑ i, (X i j - colMean X j) ^ 2) / n := rfl
  simp only [hm, hv]
  have : Real.sqrt ((∑ i, (X i j - colMean X j) ^ 2) / n) = 0 ↔ ∀ i, X i j = colMean X j := by
    rw [Real.sqrt_eq_zero (by positivity), div_eq_zero_iff,
      Finset.sum_eq_zero_iff_of_nonneg fun i _ => sq_nonneg _]
    constructor
    · rintro (h | h)
      · intro i
        have := h i (Finset.mem_univ i)
        rw [sq_eq_zero_iff, sub_eq_zero] at this
        exact this
      · exact absurd h hn.ne'
    · intro h
      left
      intro i _
      rw [h i]; ring
  by_cases h : ∀ i, X i j = colMean X j
  · rw [if_pos h, if_pos (this.2 h)]
  · rw [if_neg h, if_neg (mt this.1 h)]

theorem scale_pos (X : Fin n → Fin p → ℝ) (j : Fin p) : 0 < (standardScaler true X).scale j := by
  unfold standardScaler
  simp only
  split_ifs with h
  · exact one_pos
  · exact lt_of_le_of_ne (Real.sqrt_nonneg _) (Ne.symm h)

/-- The units of the coefficients. -/
noncomputable def unitOf (a : LArgs) (X : Fin n → Fin p → ℝ) : Fin p → ℝ :=
  if a.std then fun j => (standardScaler true X).scale j else fun _ => 1

/-- The objective in the units of the data. -/
theorem pen_solver [NeZero n] (a : LArgs) (X : Fin n → Fin p → ℝ) (y sw : Fin n → ℝ) (hs : a.std = true → a.fi = true)
    (c : Fin p → ℝ) (b : ℝ) (hb : a.fi = false → b = 0) :
    penalised (fun x => (flatLoss a (preX a X) y sw x).1) (a.alpha * a.l1) 0 (p : Int)
      (joinParts a (toSolver a X c b).1 (toSolver a X c b).2) = enetObj X y sw a.alpha a.l1 (unitOf a X) b c := by
  rw [pen_parts, coefPart_join, interceptPart_join]
  unfold enetObj smoothLoss toSolver preX unitOf
  cases h : a.std with
  | false =>
    have : ((if a.fi then some b else none).getD 0 : ℝ) = b := by
      cases hf : a.fi with
      | false => simp [hb hf]
      | true => simp
    simp only [Bool.false_eq_true, if_false, this, one_mul]
    ring
  | true =>
    simp only [if_true, hs h, Option.getD_some]
    have : ∀ i, b + ∑ j, (standardScaler true X).mean j * c j +
        ∑ j, (standardScaler true X).apply (X i) j * ((standardScaler true X).scale j * c j) =
        b + ∑ j, X i j * c j := by
      intro i
      rw [add_assoc, ← Finset.sum_add_distrib]
      congr 1
      refine Finset.sum_congr rfl fun j _ => ?_
      have hj := (scale_pos X j).ne'
      unfold Scaler.apply
      rw [show (standardScaler true X).withMean = true from rfl, if_pos rfl]
      field_simp
      ring
    simp only [this]
    ring

/-- The attributes after the optimisation, in the solver's units. -/
theorem store_solver (a : LArgs) (X : Fin n → Fin p → ℝ) (hs : a.std = true → a.fi = true) (o : PObj p)
    (x : Fin (a.size p) → ℝ) : ∃ (c : Fin p → ℝ) (b : ℝ), (poisStore a X o x).coef = some c ∧
      (a.fi = true → (poisStore a X o x).intercept = some (b : WithBot ℝ)) ∧
      (a.fi = false → b = 0 ∧ (poisStore a X o x).intercept = o.intercept) ∧
      joinParts a (toSolver a X c b).1 (toSolver a X c b).2 = x := by
  unfold poisStore
  cases hf : a.fi with
  | false =>
    have hstd : a.std = false := by
      cases h : a.std with
      | false => rfl
      | true => rw [hs h] at hf; cases hf
    have : interceptPart a x = none := by unfold interceptPart; simp [hf]
    simp only [this]
    refine ⟨_, 0, rfl, (fun h => by cases h), fun _ => ⟨rfl, trivial⟩, ?_⟩
    rw [poisPost, hstd, toSolver, hstd]
    simp only [Bool.false_eq_true, if_false]
    conv_rhs => rw [← join_parts a x]
    rw [this]
    rfl
  | true =>
    obtain ⟨b, hb⟩ : ∃ b, interceptPart a x = some b := ⟨_, by unfold interceptPart; rw [dif_pos hf]⟩
    simp only [hb]
    have hx := join_parts a x
    rw [hb, Option.getD_some] at hx
    cases h : a.std with
    | false =>
      refine ⟨_, b, rfl, fun _ => by simp [poisPost], (fun h => by cases h), ?_⟩
      simp only [toSolver, poisPost, h, Bool.false_eq_true, if_false]
      exact hx
    | true =>
      refine ⟨_, b + -∑ j, (standardScaler true X).mean j * coefPart a x j / (standardScaler true X).scale j, rfl,
        fun _ => by simp [poisPost], (fun h => by cases h), ?_⟩
      simp only [toSolver, poisPost, h, if_true]
      conv_rhs => rw [← hx]
      congr 1
      · funext j
        have := (scale_pos X j).ne'
        field_simp
      · have : ∀ j, (standardScaler true X).mean j * (coefPart a x j / (standardScaler true X).scale j) =
            (standardScaler true X).mean j * coefPart a x j / (standardScaler true X).scale j := fun j => by ring
        simp only [this]
        ring

/-- A fit that ended without warning is almost optimal, in the solver's units. -/
theorem fmin_gap {N : Nat} {σ : Type} (c : Callables N σ ℝ) (hsq : c.sqrt = Real.sqrt) (F : (Fin N → ℝ) → ℝ)
    (G : (Fin N → ℝ) → Fin N → ℝ) (hF : ∀ x, c.f x = (.ok (F x), G x)) (hFG : ConvexGrad F G)
    (hp : ∀ cb x g f xn gn st k ls, (c.progress cb x g f xn gn st k ls).1 ≠ .ok (some 2))
    (a : Args ℝ) (x0 x : Fin N → ℝ) (cb : σ) (tr : List (Fin N → ℝ))
    (h : Fmin c a x0 cb (.returned x none) tr) (stop : Int)
    (hs : stop = if a.par.stop < 0 then (N : Int) else a.par.stop) (y : Fin N → ℝ) :
    penalised F a.par.c a.par.start stop x ≤ penalised F a.par.c a.par.start stop y +
      a.par.epsilon * max 1 (Real.sqrt (∑ i, x i ^ 2)) * Real.sqrt (∑ i, (y i - x i) ^ 2) := by
  obtain ⟨ls, o, -, hl, rfl, hr⟩ := fmin_converged hp h
  have e1 : (fun x => (c.env.eval x).1) = F := by funext x; simp only [Callables.env]; rw [hF]
  have e2 : (fun x => (c.env.eval x).2) = G := by funext x; simp only [Callables.env]; rw [hF]
  have := C84_gap c.env hsq _ _ _ o hl hr stop hs (by rw [e1, e2]; exact hFG) y
  rw [e1] at this
  exact this

/-- The codes with which a penalised run ends, if the first pseudo-gradient is not too large. -/
theorem lbfgs_owlqn_codes {N : Nat} {σ : Type} {env : Env N σ ℝ} (hsq : env.sqrt = Real.sqrt) {p : Par ℝ}
    (hck : check N p = none) (hc : 0 < p.c) (hstop : 0 ≤ p.stop) (hpast : p.past = 0) (hmin : 0 ≤ p.minStep)
    (hml : 0 < p.maxLinesearch) (h1 : p.minStep * 2 ^ (p.maxLinesearch.toNat - 1) ≤ 1) (h2 : 1 ≤ p.maxStep)
    {B : ℝ} (hB : p.minStep * 2 ^ (p.maxLinesearch.toNat - 1) * B ≤ 1) (heps : 1 ≤ p.maxStep * p.epsilon)
    {x0 : Fin N → ℝ} (hup : Real.sqrt (∑ i, pseudoGradient x0 (env.eval x0).2 p.c p.start p.stop i ^ 2) ≤ B)
    {cb : σ} {o : Out N ℝ} (h : Lbfgs env p x0 cb o) :
    o.ret = ERR_MAXIMUMLINESEARCH ∨ o.ret = SUCCESS ∨ o.ret = ERR_MAXIMUMITERATION ∨ o.ret = ALREADY_MINIMIZED ∨
      ∃ cb x g a b c d k l, o.ret ≠ 0 ∧ o.ret = (env.progress cb x g a b c d k l).1 := by
  have hfill : fillEnd N p = p := by unfold fillEnd; rw [if_neg (not_lt.2 hstop)]
  cases h with
  | rejected hc => rw [hck] at hc; cases hc
  | already => exact .inr (.inr (.inr (.inl rfl)))
  | run _ hna hrun =>
    rw [hfill] at hna hrun
    set pg := pseudoGradient x0 (env.eval x0).2 p.c p.start p.stop with hpg
    have hcne : ¬ feq p.c 0 := by rw [feq_iff]; exact hc.ne'
    have hnorm : vec2norm env.sqrt (start env p x0 cb).d = Real.sqrt (∑ i, pg i ^ 2) := by
      unfold vec2norm
      rw [vecdot_eq, hsq]
      congr 1
      refine Finset.sum_congr rfl fun i _ => ?_
      simp only [start, effGrad, if_neg hcne]
      rw [hpg]
      ring
    have hlow : 1 / p.maxStep ≤ Real.sqrt (∑ i, pg i ^ 2) := by
      by_contra hle
      apply hna
      unfold already converged
      have he : vec2norm env.sqrt (effGrad p (start env p x0 cb).g (start env p x0 cb).pg) =
          Real.sqrt (∑ i, pg i ^ 2) := by
        unfold vec2norm
        rw [vecdot_eq, hsq]
        congr 1
        refine Finset.sum_congr rfl fun i _ => ?_
        simp only [start, effGrad, if_neg hcne]
        rw [hpg]
        ring
      rw [he]
      have hms : (0 : ℝ) < p.maxStep := lt_of_lt_of_le one_pos h2
      refine le_trans ?_ ((not_le.1 hle).le.trans ((div_le_iff₀ hms).2 (by linarith)))
      apply div_le_self (Real.sqrt_nonneg _)
      split_ifs with hx
      · exact le_refl _
      · exact not_lt.1 hx
    have hms : (0 : ℝ) < p.maxStep := lt_of_lt_of_le one_pos h2
    have hpos : 0 < Real.sqrt (∑ i, pg i ^ 2) := lt_of_lt_of_le (by positivity) hlow
    have hstep : (start env p x0 cb).step = 1 / Real.sqrt (∑ i, pg i ^ 2) := by
      rw [← hnorm]; rfl
    have := run_codes_owlqn hc.ne' hmin hml hpast h1 h2 hrun (by rw [hstep]; positivity) (by
        rw [hstep]
        constructor
        · rw [le_div_iff₀ hpos]
          exact (mul_le_mul_of_nonneg_left hup (by positivity)).trans hB
        · rw [div_le_iff₀ hpos]
          rw [div_le_iff₀ hms] at hlow
          linarith)
    rcases this with h | h | h | h
    · exact .inl h
    · exact .inr (.inl h)
    · exact .inr (.inr (.inl h))
    · exact .inr (.inr (.inr (.inr h)))

/-- The arguments of a fit with a positive L1 penalty are accepted. -/
theorem pois_accepted {a : LArgs} {p : Nat} (hc : 0 < a.alpha * a.l1) (ht : 0 ≤ a.tol) (hs : 0 < a.size p) :
    fminPar (poisArgs a p) = .ok { (poisArgs a p).par with linesearch := 2 } ∧
      check (a.size p) { (poisArgs a p).par with linesearch := 2 } = none := by
  constructor
  · unfold fminPar
    rw [if_neg (by simpa [poisArgs] using hc.le)]
    have : chooseSearch (poisArgs a p) = ("wolfe", false) := by
      unfold chooseSearch
      rw [if_neg (by simp [poisArgs]), if_pos ⟨hc, rfl⟩]
    rw [this]
    have h2 : lineSearchAlgo.lookup "wolfe" = some "LBFGS_LINESEARCH_BACKTRACKING_WOLFE" := by decide +kernel
    simp only [h2]
    congr 2
  · rw [C71_accepted_partial]
    intro e he
    cases he with
    | n h => omega
    | epsilon h => exact absurd h (not_lt.2 ht)
    | past h => exact absurd h (lt_irrefl _)
    | delta h => exact absurd h (lt_irrefl _)
    | minStep h => exact absurd h (by norm_num [poisArgs])
    | maxStep h => exact absurd h (by norm_num [poisArgs])
    | ftol h => exact absurd h (by norm_num [poisArgs])
    | wolfe _ h => exact absurd (show _ ∧ _ by norm_num [poisArgs]) h
    | gtol h => exact absurd h (by norm_num [poisArgs])
    | xtol h => exact absurd h (by norm_num [poisArgs])
    | maxLinesearch h => exact absurd h (by norm_num [poisArgs])
    | c h => exact absurd h (not_lt.2 hc.le)
    | start h => exact absurd ⟨le_refl _, by simp [poisArgs]⟩ h
    | stop h => exact absurd h (by simp [poisArgs, LArgs.size]; split_ifs <;> norm_num)
    | searchPenalised _ h => exact h rfl
    | searchPlain h => exact absurd h hc.ne'

/-- The size of the gradient where all coefficients are zero. -/
theorem flat_grad_zero (a : LArgs) (X : Fin n → Fin p → ℝ) (y sw : Fin n → ℝ) {M Y W : ℝ} (hM : 1 ≤ M)
    (hX : ∀ i j, |X i j| ≤ M) (hY : ∀ i, |y i - 1| ≤ Y) (hsw : ∀ i, |sw i| ≤ W) (hY0 : 0 ≤ Y) (hW0 : 0 ≤ W)
    (i : Fin (a.size p)) : |(flatLoss a X y sw fun _ => 0).2 i| ≤ M * (W * Y) := by
  have hz : ∀ i, |sw i * (y i - 1)| ≤ W * Y := fun i => by
    rw [abs_mul]; exact mul_le_mul (hsw i) (hY i) (abs_nonneg _) hW0
  have hWY : 0 ≤ W * Y := mul_nonneg hW0 hY0
  have he : ∀ i, (interceptPart a (fun _ : Fin (a.size p) => (0 : ℝ))).getD 0 +
      dot (X i) (coefPart a fun _ => 0) = 0 := by
    intro i
    have : (interceptPart a (fun _ : Fin (a.size p) => (0 : ℝ))).getD 0 = 0 := by
      unfold interceptPart; split_ifs <;> rfl
    rw [this]
    simp [dot, coefPart]
  unfold flatLoss joinParts
  simp only [lossGrad, he, Real.exp_zero]
  split_ifs with h
  · have : coefPart a (fun _ : Fin (a.size p) => (0 : ℝ)) ⟨i, h⟩ = 0 := rfl
    rw [this, mul_zero, add_zero, neg_div, abs_neg]
    refine Verif.Logistic.abs_mean_le (by positivity) fun k => ?_
    rw [abs_mul]
    exact mul_le_mul (hX k _) (hz k) (abs_nonneg _) (by linarith)
  · unfold interceptPart
    split_ifs
    · simp only [Option.map_some, Option.getD_some, abs_neg]
      exact (Verif.Logistic.abs_mean_le hWY hz).trans (le_mul_of_one_le_left hWY hM)
    · simp only [Option.map_none, Option.getD_none, abs_zero]
      positivity

/-- Standardized entries are at most the square root of the number of rows. -/
theorem apply_le [NeZero n] (X : Fin n → Fin p → ℝ) (i : Fin n) (j : Fin p) :
    |(standardScaler true X).apply (X i) j| ≤ Real.sqrt n := by
  have hn : (0 : ℝ) < n := by exact_mod_cast Nat.pos_of_ne_zero (NeZero.ne n)
  have hp := scale_pos X j
  have hd : (X i j - colMean X j) ^ 2 ≤ n * (standardScaler true X).scale j ^ 2 := by
    rw [scale_eq]
    unfold colSd
    split_ifs with h
    · rw [h i]; simp
    · rw [Real.sq_sqrt (by positivity), mul_div_cancel₀ _ hn.ne']
      exact Finset.single_le_sum (f := fun i => (X i j - colMean X j) ^ 2) (fun i _ => sq_nonneg _) (Finset.mem_univ i)
  have : |X i j - colMean X j| ≤ Real.sqrt n * (standardScaler true X).scale j := by
    apply abs_le_of_sq_le_sq _ (by positivity)
    rw [mul_pow, Real.sq_sqrt hn.le]
    exact hd
  change |(X i j - colMean X j) / (standardScaler true X).scale j| ≤ _
  rw [abs_div, abs_of_pos hp, div_le_iff₀ hp]
  exact this

/-- The start of a cold fit. -/
theorem poisStart_cold (a : LArgs) (X : Fin n → Fin p → ℝ) (o : PObj p) (h : a.warm = false) :
    poisStart a X o = some fun _ => 0 := by
  unfold poisStart joinParts
  simp [h]

/-- A fit whose start satisfies the convergence test returns it. -/
theorem fit_already {a : LArgs} {X : Fin n → Fin p → ℝ} {y sw : Fin n → ℝ} {o : PObj p} (hc : 0 < a.alpha * a.l1)
    (ht : 0 ≤ a.tol) (hs : 0 < a.size p) (hy : ∃ i i', y i ≠ y i') {x0 : Fin (a.size p) → ℝ}
    (hx0 : poisStart a X o = some x0)
    (h : Real.sqrt (∑ i, pseudoGradient x0 (flatLoss a (preX a X) y sw x0).2 (a.alpha * a.l1) 0 (p : Int) i ^ 2) ≤
      a.tol * max 1 (Real.sqrt (∑ i, x0 i ^ 2))) :
    LbfgsFit a X y sw o (.ok (poisStore a X o x0)) none := by
  obtain ⟨i, i', hne⟩ := hy
  refine .inr ⟨fun h => hne (h i i'), _, hx0, ?_⟩
  obtain ⟨hp, hck⟩ := pois_accepted hc ht hs
  refine ⟨_, _, .run hp (.already hck ?_), .inl ⟨_, _, rfl, rfl, rfl⟩⟩
  have hfill : fillEnd (a.size p) { (poisArgs a p).par with linesearch := 2 } =
      { (poisArgs a p).par with linesearch := 2 } := by
    unfold fillEnd
    rw [if_neg (by simp [poisArgs])]
  rw [hfill]
  unfold already converged
  have hcne : ¬ feq (poisArgs a p).par.c 0 := by rw [feq_iff]; exact hc.ne'
  have hg : vec2norm (poisCallables a (preX a X) y sw).env.sqrt
      (effGrad { (poisArgs a p).par with linesearch := 2 }
      (start (poisCallables a (preX a X) y sw).env { (poisArgs a p).par with linesearch := 2 } x0 ()).g
      (start (poisCallables a (preX a X) y sw).env { (poisArgs a p).par with linesearch := 2 } x0 ()).pg) =
      Real.sqrt (∑ i, pseudoGradient x0 (flatLoss a (preX a X) y sw x0).2 (a.alpha * a.l1) 0 (p : Int) i ^ 2) := by
    unfold vec2norm
    rw [vecdot_eq]
    simp only [effGrad, start, if_neg hcne]
    change Real.sqrt _ = _
    congr 1
    refine Finset.sum_congr rfl fun i _ => ?_
    rw [pow_two]
    rfl
  have hx : vec2norm (poisCallables a (preX a X) y sw).env.sqrt
      (start (poisCallables a (preX a X) y sw).env { (poisArgs a p).par with linesearch := 2 } x0 ()).x =
      Real.sqrt (∑ i, x0 i ^ 2) := by
    unfold vec2norm
    rw [vecdot_eq]
    change Real.sqrt _ = _
    congr 1
    refine Finset.sum_congr rfl fun i _ => ?_
    rw [pow_two]
    rfl
  rw [hg, hx]
  have hmax : (if Real.sqrt (∑ i, x0 i ^ 2) < 1 then 1 else Real.sqrt (∑ i, x0 i ^ 2)) =
      max 1 (Real.sqrt (∑ i, x0 i ^ 2)) := by
    split_ifs with h
    · exact (max_eq_left h.le).symm
    · exact (max_eq_right (not_lt.1 h)).symm
  rw [hmax, div_le_iff₀ (lt_of_lt_of_le one_pos (le_max_left _ _))]
  exact h

/-- Every returned vector is no worse than the start. -/
theorem fit_no_worse [NeZero n] {a : LArgs} {X : Fin n → Fin p → ℝ} {y sw : Fin n → ℝ} (hsw : ∀ i, 0 ≤ sw i)
    (hl2 : 0 ≤ a.alpha * (1 - a.l1)) (hy : ∃ i i', y i ≠ y i') {o o' : PObj p} {w : Option String}
    (h : LbfgsFit a X y sw o (.ok o') w) : ∃ x0 x, poisStart a X o = some x0 ∧ o' = poisStore a X o x ∧
      penalised (fun x => (flatLoss a (preX a X) y sw x).1) (a.alpha * a.l1) 0 (p : Int) x ≤
        penalised (fun x => (flatLoss a (preX a X) y sw x).1) (a.alpha * a.l1) 0 (p : Int) x0 := by
  rcases h with ⟨hc, -⟩ | ⟨-, x0, hx0, res, tr, hf, h⟩
  · obtain ⟨i, i', hne⟩ := hy
    exact absurd (hc i i') hne
  rcases h with ⟨x, w, rfl, hr, hw⟩ | ⟨e, msg, -, hr, -⟩
  swap
  · cases hr
  refine ⟨x0, x, hx0, Except.ok.inj hr, ?_⟩
  exact C66_fmin_partial _ (fun x => (flatLoss a (preX a X) y sw x).1) (fun x => (flatLoss a (preX a X) y sw x).2)
    (fun _ => rfl) _ _ _ _ _ _ hf (p : Int) (by simp [poisArgs])
    (.inr (.inr ⟨flat_convex a _ y sw hsw hl2, by norm_num [poisArgs]⟩))

/-- With an iteration limit there is exactly one result. -/
theorem fit_ends (a : LArgs) (X : Fin n → Fin p → ℝ) (y sw : Fin n → ℝ) (o : PObj p) (hm : a.maxIter ≠ 0)
    (hst : (∀ i i', y i = y i') ∨ ∃ x0, poisStart a X o = some x0) :
    ∃ r w, LbfgsFit a X y sw o r w ∧ ∀ r' w', LbfgsFit a X y sw o r' w' → r' = r ∧ w' = w := by
  by_cases hy : ∀ i i', y i = y i'
  · refine ⟨_, _, .inl ⟨hy, rfl, rfl⟩, ?_⟩
    rintro r' w' (⟨-, rfl, rfl⟩ | ⟨h, -⟩)
    · exact ⟨rfl, rfl⟩
    · exact absurd hy h
  obtain ⟨x0, hx0⟩ := hst.resolve_left hy
  have hu : ∃ res tr, Fmin (poisCallables a (preX a X) y sw) (poisArgs a p) x0 () res tr ∧
      ∀ res' tr', Fmin (poisCallables a (preX a X) y sw) (poisArgs a p) x0 () res' tr' → res' = res := by
    rcases hp : fminPar (poisArgs a p) with e | q
    · refine ⟨_, _, .bad hp, fun res' tr' h => ?_⟩
      cases h with
      | bad h => rw [hp] at h; cases h; rfl
      | run h => rw [hp] at h; cases h
    · have hq : q.maxIterations ≠ 0 := by
        unfold fminPar at hp
        split_ifs at hp
        split at hp
        · cases hp
        · cases hp
          simp only [poisArgs]
          exact_mod_cast hm
      obtain ⟨u, hu, hun⟩ := C67_ends (poisCallables a (preX a X) y sw).env q x0 () hq
      refine ⟨_, _, .run hp hu, fun res' tr' h => ?_⟩
      cases h with
      | bad h => rw [hp] at h; cases h
      | run h hl => rw [hp] at h; cases h; rw [hun _ hl]
  obtain ⟨res, tr, h, hun⟩ := hu
  have key : ∀ r' w', LbfgsFit a X y sw o r' w' →
      ((∃ x w, res = .returned x w ∧ r' = .ok (poisStore a X o x) ∧ w' = w) ∨
        ∃ e msg, res = .raised e msg ∧ r' = .error e ∧ w' = none) := by
    rintro r' w' (⟨h, -⟩ | ⟨-, x0', hx0', res', tr', hf, h⟩)
    · exact absurd h hy
    · rw [hx0] at hx0'
      cases hx0'
      rw [← hun _ _ hf]
      exact h
  rcases res with ⟨x, w⟩ | ⟨e, msg⟩
  · refine ⟨_, _, .inr ⟨hy, _, hx0, _, _, h, .inl ⟨_, _, rfl, rfl, rfl⟩⟩, fun r' w' h' => ?_⟩
    rcases key r' w' h' with ⟨x', w'', he, rfl, rfl⟩ | ⟨e, msg, he, -⟩
    · cases he; exact ⟨rfl, rfl⟩
    · cases he
  · refine ⟨_, _, .inr ⟨hy, _, hx0, _, _, h, .inr ⟨_, _, rfl, rfl, rfl⟩⟩, fun r' w' h' => ?_⟩
    rcases key r' w' h' with ⟨x', w'', he, -⟩ | ⟨e, msg, he, rfl, rfl⟩
    · cases he
    · cases he; exact ⟨rfl, rfl⟩

/-! ### Numbers with infinities -/

theorem flt_add (a b : ℚ) : (Ext.fin a : Flt) + Ext.fin b = Ext.fin (a + b) := rfl
theorem flt_mul (a b : ℚ) : (Ext.fin a : Flt) * Ext.fin b = Ext.fin (a * b) := rfl
theorem flt_neg (a : ℚ) : -(Ext.fin a : Flt) = Ext.fin (-a) := rfl
theorem flt_sub (a b : ℚ) : (Ext.fin a : Flt) - Ext.fin b = Ext.fin (a + -b) := rfl
theorem flt_div (a b : ℚ) (hb : b ≠ 0) : (Ext.fin a : Flt) / Ext.fin b = Ext.fin (a / b) := by
  change Flt.div _ _ = _
  simp [Flt.div, hb]
theorem flt_zero : (0 : Flt) = Ext.fin 0 := rfl
theorem flt_one : (1 : Flt) = Ext.fin 1 := rfl
theorem flt_nat (m : Nat) : ((m : Nat) : Flt) = Ext.fin (m : ℚ) := rfl
theorem flt_ninf_add (a : ℚ) : (Ext.ninf : Flt) + Ext.fin a = Ext.ninf := rfl

theorem foldl_fin {α : Type} (f : α → Flt) (q : α → ℚ) (h : ∀ x, f x = .fin (q x)) (l : List α) (s : ℚ) :
    (l.map f).foldl (· + ·) (.fin s) = .fin (l.foldl (fun s x => s + q x) s) := by
  induction l generalizing s with
  | nil => rfl
  | cons x l ih => simp only [List.map_cons, List.foldl_cons, h, flt_add]; exact ih _

theorem fsum_fin {m : Nat} (f : Fin m → Flt) (q : Fin m → ℚ) (h : ∀ x, f x = .fin (q x)) :
    fsum f = .fin ((List.finRange m).foldl (fun s x => s + q x) 0) := foldl_fin f q h _ 0

/-- A sum of finite nonnegative numbers. -/
theorem foldl_nonneg {α : Type} (f : α → Flt) (h : ∀ x, ∃ q : ℚ, 0 ≤ q ∧ f x = .fin q) (l : List α) (s : ℚ) (hs : 0 ≤ s) :
    ∃ r : ℚ, 0 ≤ r ∧ l.foldl (fun s x => s + f x) (.fin s : Flt) = .fin r := by
  induction l generalizing s with
  | nil => exact ⟨s, hs, rfl⟩
  | cons x l ih =>
    obtain ⟨q, hq, hx⟩ := h x
    rw [List.foldl_cons, hx, flt_add]
    exact ih _ (add_nonneg hs hq)

/-- A sum of finite numbers and plus infinities is one of them. -/
theorem foldl_inf {α : Type} (f : α → Flt) (h : ∀ x, f x = .pinf ∨ ∃ q : ℚ, f x = .fin q) (l : List α) (s : Flt)
    (hs : s = .pinf ∨ ((∃ q : ℚ, s = .fin q) ∧ ∃ x ∈ l, f x = .pinf)) :
    l.foldl (fun s x => s + f x) s = .pinf := by
  induction l generalizing s with
  | nil =>
    rcases hs with h | ⟨-, x, hx, -⟩
    · exact h
    · cases hx
  | cons x l ih =>
    rw [List.foldl_cons]
    apply ih
    rcases hs with rfl | ⟨⟨q, rfl⟩, x', hx', he⟩
    · left
      rcases h x with h | ⟨q, h⟩ <;> rw [h] <;> rfl
    · rcases h x with h | ⟨r, h⟩
      · left; rw [h]; rfl
      · right
        refine ⟨⟨q + r, by rw [h]; rfl⟩, x', ?_, he⟩
        rcases List.mem_cons.1 hx' with rfl | h'
        · rw [h] at he; cases he
        · exact h'

section
variable (fexp fsqrt : Flt → Flt) (a : LArgs)

theorem fltStart_coef (scale : Fin p → ℚ) :
    coefPart a (fltStart a fun j => .fin (scale j)) = fun _ => (Ext.fin 0 : Flt) := by
  unfold fltStart
  rw [coefPart_join]
  funext j
  cases a.std with
  | true => simp only [if_true]; rw [flt_zero, flt_mul, zero_mul]
  | false => rfl

theorem fltStart_intercept (hfi : a.fi = true) (scale : Fin p → ℚ) :
    interceptPart a (fltStart a fun j => .fin (scale j)) = some (Ext.ninf : Flt) := by
  unfold fltStart
  rw [interceptPart_join, if_pos hfi]

theorem flt_predict (he : fexp .ninf = .fin 0) (hfi : a.fi = true) (scale mean : Fin p → ℚ) (hsc : ∀ j, scale j ≠ 0)
    (z : Fin p → ℚ) : fltPredict fexp a (fun j => .fin (scale j)) (fun j => .fin (mean j))
      (fltStart a fun j => .fin (scale j)) (fun j => .fin (z j)) = .fin 0 := by
  unfold fltPredict
  simp only [fltStart_coef, fltStart_intercept a hfi, Option.getD_some]
  split_ifs with h
  · rw [fsum_fin _ _ (fun j => by rw [flt_mul, flt_div _ _ (hsc j)]), flt_neg, flt_ninf_add,
      fsum_fin _ _ (fun j => by rw [flt_div _ _ (hsc j), flt_mul]), flt_ninf_add, he]
  · rw [fsum_fin _ _ (fun j => flt_mul _ _), flt_ninf_add, he]

/-- The gradient at the start is finite. -/
theorem flt_grad [NeZero n] (he : fexp .ninf = .fin 0) (hfi : a.fi = true) (l2 : ℚ) (X : Fin n → Fin p → ℚ)
    (y : Fin n → ℚ) (scale : Fin p → ℚ) (i : Fin (a.size p)) :
    ∃ q : ℚ, (fltLoss fexp a (.fin l2) (fun i j => .fin (X i j)) (fun i => .fin (y i))
      (fltStart a fun j => .fin (scale j))).2 i = .fin q := by
  have hn : (n : ℚ) ≠ 0 := Nat.cast_ne_zero.2 (NeZero.ne n)
  have heta : ∀ i, fexp ((Ext.ninf : Flt) + fsum fun j => (Ext.fin (X i j) : Flt) * Ext.fin 0) = .fin 0 := by
    intro i
    rw [fsum_fin _ _ (fun j => flt_mul _ _), flt_ninf_add, he]
  have hres : ∀ i, (1 : Flt) * (Ext.fin (y i) - Ext.fin 0) = Ext.fin (1 * (y i + -0)) := fun i => rfl
  unfold fltLoss
  simp only [fltStart_coef, fltStart_intercept a hfi, Option.getD_some, heta, hres]
  unfold joinParts
  split_ifs with h
  · dsimp only
    rw [fsum_fin _ _ (fun j => flt_mul _ _), flt_neg, flt_nat, flt_div _ _ hn, flt_mul, flt_add]
    exact ⟨_, rfl⟩
  · rw [fsum_fin _ _ (fun j => rfl), flt_nat, flt_div _ _ hn, flt_neg]
    exact ⟨_, rfl⟩

theorem flt_stuck [NeZero n] (he : fexp .ninf = .fin 0)
    (hs : ∀ q : ℚ, 0 ≤ q → ∃ r : ℚ, fsqrt (.fin q) = .fin r) (hsi : fsqrt .pinf = .pinf)
    (hfi : a.fi = true) (l2 c tol : ℚ) (hc : 0 ≤ c) (ht : 0 ≤ tol) (X : Fin n → Fin p → ℚ) (y : Fin n → ℚ)
    (scale : Fin p → ℚ) (maxIter : Nat) :
    Fmin (fltCallables fexp fsqrt a (.fin l2) (fun i j => .fin (X i j)) fun i => .fin (y i))
      (fltArgs (.fin c) (.fin tol) maxIter p) (fltStart a fun j => .fin (scale j)) ()
      (.returned (fltStart a fun j => .fin (scale j)) none) [fltStart a fun j => .fin (scale j)] := by
  set x0 : Fin (a.size p) → Flt := fltStart a fun j => .fin (scale j) with hx0
  have hsz : a.size p = p + 1 := by simp [LArgs.size, hfi]
  set ls : Int := if 0 < c then 2 else 0 with hls
  set par : Par Flt := { (fltArgs (.fin c) (.fin tol) maxIter p).par with linesearch := ls } with hpar
  have hle : ∀ u v : ℚ, ((Ext.fin u : Flt) ≤ Ext.fin v) ↔ u ≤ v := fun u v => by
    change (Flt.le _ _ = true) ↔ _
    simp [Flt.le]
  have hlt : ∀ u v : ℚ, ((Ext.fin u : Flt) < Ext.fin v) ↔ u < v := fun u v => by
    change (Flt.lt _ _ = true) ↔ _
    simp [Flt.lt]
  have hp : fminPar (fltArgs (.fin c) (.fin tol) maxIter p) = .ok par := by
    unfold fminPar chooseSearch
    have h0 : (0 : Flt) ≤ (fltArgs (.fin c) (.fin tol) maxIter p).par.c := (hle 0 c).2 hc
    have h1 : (0 : Flt) < (fltArgs (.fin c) (.fin tol) maxIter p).par.c ↔ 0 < c := hlt 0 c
    rw [if_neg (not_not.2 h0)]
    simp only [h1]
    by_cases hcp : 0 < c
    · have : ls = 2 := if_pos hcp
      rw [hpar, this]
      simp [hcp, fltArgs, lineSearchAlgo, wrapperSearch, cEnum]
      rfl
    · have : ls = 0 := if_neg hcp
      rw [hpar, this]
      simp [hcp, fltArgs, lineSearchAlgo, wrapperSearch, cEnum]
  have hck : check (a.size p) par = none := by
    unfold check
    have g1 : ¬ par.epsilon < 0 := by
      change ¬ (Ext.fin tol : Flt) < Ext.fin 0
      rw [hlt]; exact not_lt.2 ht
    have g2 : ¬ par.c < 0 := by
      change ¬ (Ext.fin c : Flt) < Ext.fin 0
      rw [hlt]; exact not_lt.2 hc
    have g3 : feq par.c 0 ↔ ¬ 0 < c := by
      change ((Ext.fin c : Flt) ≤ Ext.fin 0 ∧ (Ext.fin 0 : Flt) ≤ Ext.fin c) ↔ _
      rw [hle, hle, not_lt]
      exact ⟨And.left, fun h => ⟨h, hc⟩⟩
    have g4 : ¬ par.delta < 0 := by change ¬ (Ext.fin 0 : Flt) < Ext.fin 0; decide
    have g5 : ¬ par.minStep < 0 := by change ¬ (Ext.fin _ : Flt) < Ext.fin 0; rw [hlt]; norm_num
    have g6 : ¬ par.maxStep < par.minStep := by change ¬ (Ext.fin _ : Flt) < Ext.fin _; rw [hlt]; norm_num
    have g7 : ¬ par.ftol < 0 := by change ¬ (Ext.fin _ : Flt) < Ext.fin 0; rw [hlt]; norm_num
    have g8 : ¬ par.wolfe ≤ par.ftol := by change ¬ (Ext.fin _ : Flt) ≤ Ext.fin _; rw [hle]; norm_num
    have g9 : ¬ 1 ≤ par.wolfe := by change ¬ (Ext.fin 1 : Flt) ≤ Ext.fin _; rw [hle]; norm_num
    have g10 : ¬ par.gtol < 0 := by change ¬ (Ext.fin _ : Flt) < Ext.fin 0; rw [hlt]; norm_num
    have g11 : ¬ par.xtol < 0 := by change ¬ (Ext.fin _ : Flt) < Ext.fin 0; rw [hlt]; norm_num
    have g12 : ¬ par.past < 0 := lt_irrefl (0 : Int)
    have g13 : ¬ par.maxLinesearch ≤ 0 := by change ¬ (20 : Int) ≤ 0; decide
    have g14 : ¬ (par.start < 0 ∨ ((a.size p : Nat) : Int) < par.start) := by
      change ¬ ((0 : Int) < 0 ∨ ((a.size p : Nat) : Int) < 0)
      omega
    have g15 : ¬ (((a.size p : Nat) : Int) < if par.stop < 0 then ((a.size p : Nat) : Int) else par.stop) := by
      change ¬ (((a.size p : Nat) : Int) < if ((p : Nat) : Int) < 0 then ((a.size p : Nat) : Int) else ((p : Nat) : Int))
      split_ifs <;> omega
    have g0 : ¬ a.size p = 0 := by omega
    have gl : par.linesearch = ls := rfl
    simp only [g0, g1, g2, g3, g4, g5, g6, g7, g8, g9, g10, g11, g12, g13, g14, g15, gl, if_false, or_false, and_false,
      not_not]
    by_cases hcp : 0 < c
    · simp [hcp, hls, LS_WOLFE]
    · simp [hcp, hls, LS_MORETHUENTE]
  have hfill : fillEnd (a.size p) par = par := by
    unfold fillEnd
    rw [if_neg (by simp [hpar, fltArgs])]
  refine .run (o := ⟨ALREADY_MINIMIZED, x0, [x0], []⟩) hp (.already hck ?_)
  rw [hfill]
  set env := (fltCallables fexp fsqrt a (.fin l2) (fun i j => .fin (X i j)) fun i => .fin (y i)).env with henv
  have hgrad : ∀ i, ∃ q : ℚ, effGrad par (start env par x0 ()).g (start env par x0 ()).pg i = .fin q := by
    intro i
    obtain ⟨q, hq⟩ := flt_grad fexp a he hfi l2 X y scale i
    have hg : (start env par x0 ()).g i = .fin q := hq
    unfold effGrad
    by_cases h0 : feq par.c 0
    · rw [if_pos h0]; exact ⟨q, hg⟩
    · rw [if_neg h0]
      have hpg : (start env par x0 ()).pg i = pseudoGradient x0 (start env par x0 ()).g par.c par.start par.stop i := by
        change (if feq par.c 0 then _ else _ : Fin (a.size p) → Flt) i = _
        rw [if_neg h0]
        rfl
      rw [hpg]
      unfold pseudoGradient
      rw [hg]
      have hcc : par.c = .fin c := rfl
      rw [hcc]
      split_ifs
      all_goals first | exact ⟨_, flt_sub _ _⟩ | exact ⟨_, flt_add _ _⟩ | exact ⟨_, rfl⟩
  obtain ⟨r, hr, hrr⟩ := foldl_nonneg (fun i => effGrad par (start env par x0 ()).g (start env par x0 ()).pg i *
      effGrad par (start env par x0 ()).g (start env par x0 ()).pg i)
    (fun i => by
      obtain ⟨q, hq⟩ := hgrad i
      exact ⟨q * q, mul_self_nonneg q, by rw [hq, flt_mul]⟩) (List.finRange (a.size p)) 0 le_rfl
  obtain ⟨gn, hgn⟩ := hs r hr
  have hG : vec2norm env.sqrt (effGrad par (start env par x0 ()).g (start env par x0 ()).pg) = .fin gn := by
    unfold vec2norm vecdot vsum
    change fsqrt (List.foldl _ (Ext.fin 0 : Flt) _) = _
    rw [hrr, hgn]
  have hx : ∀ i : Fin (a.size p), x0 i = if i.val < p then Ext.fin 0 else Ext.ninf := by
    intro i
    rw [hx0]
    unfold fltStart joinParts
    split_ifs with h h'
    · dsimp only
      rw [flt_zero, flt_mul, zero_mul]
    · rfl
    · rfl
  have hXn : vec2norm env.sqrt (start env par x0 ()).x = .pinf := by
    unfold vec2norm vecdot vsum
    change fsqrt (List.foldl (fun s i => s + x0 i * x0 i) (Ext.fin 0) _) = _
    rw [foldl_inf (fun i => x0 i * x0 i) ?_ _ _ (.inr ⟨⟨0, rfl⟩, ⟨p, by omega⟩, List.mem_finRange _, ?_⟩), hsi]
    · intro i
      rw [hx i]
      split_ifs
      · exact .inr ⟨0 * 0, rfl⟩
      · exact .inl rfl
    · rw [hx, if_neg (lt_irrefl p)]
      rfl
  unfold already converged
  rw [hG, hXn]
  have : ¬ ((Ext.pinf : Flt) < 1) := by decide
  rw [if_neg this]
  have h2 : (Ext.fin gn : Flt) / Ext.pinf = Ext.fin 0 := rfl
  rw [h2]
  exact (hle 0 tol).2 ht
end

end Verif.Poisson
