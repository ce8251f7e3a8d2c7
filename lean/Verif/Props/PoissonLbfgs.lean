import Verif.Lemmas.PoissonLbfgs
/-!
C89–C93: Poisson fits with the library's own optimiser.
-/
namespace Verif.Poisson
open Verif.Py Verif.Scaling Verif.Lbfgs Verif.Lbfgs.Spec Verif.Spec.Poisson

variable {n p : Nat}

/-! ### C89 -/

/-- **C89**: a fit that ends without a warning is almost optimal: no coefficients with any intercept have
    an elastic-net objective below that of the result by more than `tol * max(1, |result|)` times their
    distance.  With `standardize` the penalty, the size and the distance are in units of the standard
    deviations, with the intercept at the mean of the features (and an intercept is fitted, see C25). -/
theorem C89_near_optimal [NeZero n] (a : LArgs) (X : Fin n → Fin p → ℝ) (y sw : Fin n → ℝ) (hsw : ∀ i, 0 ≤ sw i)
    (hl2 : 0 ≤ a.alpha * (1 - a.l1)) (hs : a.std = true → a.fi = true) (hy : ∃ i i', y i ≠ y i') (o o' : PObj p)
    (h : LbfgsFit a X y sw o (.ok o') none) :
    let sd : Fin p → ℝ := if a.std then colSd X else fun _ => 1
    let mu : Fin p → ℝ := if a.std then colMean X else fun _ => 0
    ∃ (c : Fin p → ℝ) (b : ℝ), o'.coef = some c ∧ (a.fi = true → o'.intercept = some (b : WithBot ℝ)) ∧
      (a.fi = false → b = 0) ∧
      ∀ (c' : Fin p → ℝ) (b' : ℝ), (a.fi = false → b' = 0) →
        enetObj X y sw a.alpha a.l1 sd b c ≤ enetObj X y sw a.alpha a.l1 sd b' c' +
          a.tol * max 1 (Real.sqrt (∑ j, (sd j * c j) ^ 2 + (b + ∑ j, mu j * c j) ^ 2)) *
            Real.sqrt (∑ j, (sd j * (c' j - c j)) ^ 2 + (b' - b + ∑ j, mu j * (c' j - c j)) ^ 2) := by
  intro sd mu
  rcases h with ⟨hc, -⟩ | ⟨-, x0, -, res, tr, hf, h⟩
  · obtain ⟨i, i', hne⟩ := hy
    exact absurd (hc i i') hne
  rcases h with ⟨x, w, rfl, hr, hw⟩ | ⟨e, msg, -, hr, -⟩
  swap
  · cases hr
  cases hw
  obtain ⟨c, b, h1, h2, h3, rfl⟩ := store_solver a X hs o x
  cases hr
  refine ⟨c, b, h1, h2, fun hf => (h3 hf).1, fun c' b' hb' => ?_⟩
  have hu : unitOf a X = sd := by
    unfold unitOf sd
    split_ifs
    · funext j; exact scale_eq X j
    · rfl
  have := fmin_gap _ rfl (fun x => (flatLoss a (preX a X) y sw x).1) (fun x => (flatLoss a (preX a X) y sw x).2)
    (fun _ => rfl) (flat_convex a _ y sw hsw hl2) (fun cb x g f xn gn st k ls => by simp [poisCallables]) _ _ _ _ _ hf
    (p : Int) (by simp [poisArgs]) (joinParts a (toSolver a X c' b').1 (toSolver a X c' b').2)
  change penalised _ (a.alpha * a.l1) 0 _ _ ≤ penalised _ (a.alpha * a.l1) 0 _ _ + a.tol * _ * _ at this
  rw [pen_solver a X y sw hs c b (fun hf => (h3 hf).1), pen_solver a X y sw hs c' b' hb', hu] at this
  refine this.trans (le_of_eq ?_)
  congr 2
  · congr 3
    rw [sum_parts a]
    congr 1
    · refine Finset.sum_congr rfl fun j _ => ?_
      change (coefPart a (joinParts a (toSolver a X c b).1 (toSolver a X c b).2) j) ^ 2 = _
      rw [coefPart_join]
      unfold toSolver sd
      split_ifs
      · simp only [scale_eq]
      · simp
    · unfold interceptPart toSolver mu
      split_ifs with hf hstd hstd
      · simp [joinParts, standardScaler, Verif.Utils.mean, colMean]
      · simp [joinParts]
      · exact absurd (hs hstd) hf
      · simp [(h3 (by simpa using hf)).1]
  · congr 1
    rw [sum_parts a]
    congr 1
    · refine Finset.sum_congr rfl fun j _ => ?_
      change (coefPart a (joinParts a (toSolver a X c' b').1 (toSolver a X c' b').2) j -
        coefPart a (joinParts a (toSolver a X c b).1 (toSolver a X c b).2) j) ^ 2 = _
      rw [coefPart_join, coefPart_join]
      unfold toSolver sd
      split_ifs
      · simp only [scale_eq]; ring
      · simp
    · unfold interceptPart toSolver mu
      split_ifs with hf hstd hstd
      · simp only [joinParts, lt_irrefl, dif_neg, not_false_eq_true, Option.getD_some, standardScaler, Verif.Utils.mean,
          colMean, mul_sub, Finset.sum_sub_distrib]
        ring
      · simp [joinParts]
      · exact absurd (hs hstd) hf
      · have hf' : a.fi = false := by simpa using hf
        simp [(h3 hf').1, hb' hf']

/-- Settings of the examples: an L1 penalty of 2, an intercept, standardized features. -/
noncomputable def exL : LArgs := ⟨2, 1, 1 / 10 ^ 4, 100, true, true, false⟩

/-- One feature with the values 0 and 2. -/
def exLX : Fin 2 → Fin 1 → ℝ := fun i _ => if i = 0 then 0 else 2

/-- The response 0, 2. -/
def exLy : Fin 2 → ℝ := fun i => if i = 0 then 0 else 2

theorem exL_scaler : (standardScaler true exLX).mean 0 = 1 ∧ (standardScaler true exLX).scale 0 = 1 := by
  constructor
  · simp [standardScaler, exLX, Verif.Utils.mean]
  · simp [standardScaler, exLX, Verif.Utils.mean]
    norm_num

theorem exL_pre {a : LArgs} (h : a.std = true) : preX a exLX = fun i _ => if i = 0 then -1 else 1 := by
  funext i j
  have : j = 0 := Subsingleton.elim _ _
  subst this
  unfold preX
  rw [if_pos h]
  change (exLX i 0 - (standardScaler true exLX).mean 0) / (standardScaler true exLX).scale 0 = _
  rw [exL_scaler.1, exL_scaler.2]
  fin_cases i <;> simp [exLX]
  norm_num

/-- The fit of this data from a new object: no coefficient is worth its penalty. -/
theorem exLFit : LbfgsFit exL exLX exLy (fun _ => 1) PObj.new
    (.ok (poisStore exL exLX PObj.new fun _ => 0)) none := by
  refine fit_already (by norm_num [exL]) (by norm_num [exL]) (by decide) ⟨0, 1, by norm_num [exLy]⟩
    (poisStart_cold _ _ _ rfl) ?_
  have : ∀ i, pseudoGradient (fun _ => 0) (flatLoss exL (preX exL exLX) exLy (fun _ => 1) fun _ => 0).2
      (exL.alpha * exL.l1) 0 ((1 : Nat) : Int) i = 0 := by
    intro i
    have hi : i.val = 0 ∨ i.val = 1 := by have : i.val < 2 := i.isLt; omega
    rw [exL_pre rfl]
    have hf : exL.fi = true := rfl
    have hI : interceptPart exL (fun _ : Fin (exL.size 1) => (0 : ℝ)) = some 0 := rfl
    unfold pseudoGradient flatLoss joinParts
    rw [hI]
    rcases hi with h | h
    · simp [h, lossGrad, dot, coefPart, exLy, exL]
      norm_num
    · simp [h, lossGrad, dot, coefPart, exLy]
  simp only [this]
  norm_num [exL]

example : ∃ (c : Fin 1 → ℝ) (b : ℝ), (poisStore exL exLX PObj.new fun _ => 0).coef = some c ∧
    (exL.fi = true → (poisStore exL exLX PObj.new fun _ => 0).intercept = some (b : WithBot ℝ)) ∧
      (exL.fi = false → b = 0) ∧
      ∀ (c' : Fin 1 → ℝ) (b' : ℝ), (exL.fi = false → b' = 0) →
        enetObj exLX exLy (fun _ => 1) 2 1 (colSd exLX) b c ≤ enetObj exLX exLy (fun _ => 1) 2 1 (colSd exLX) b' c' +
          1 / 10 ^ 4 * max 1 (Real.sqrt (∑ j, (colSd exLX j * c j) ^ 2 + (b + ∑ j, colMean exLX j * c j) ^ 2)) *
            Real.sqrt (∑ j, (colSd exLX j * (c' j - c j)) ^ 2 + (b' - b + ∑ j, colMean exLX j * (c' j - c j)) ^ 2) :=
  C89_near_optimal exL exLX exLy (fun _ => 1) (fun _ => zero_le_one) (by norm_num [exL]) (fun _ => rfl)
    ⟨0, 1, by norm_num [exLy]⟩ _ _ exLFit

/-- **C89 (never worse than zero)**: every fit from a cold start, even one with a warning, has an
    objective no larger than that of zero coefficients and a zero intercept. -/
theorem C89_no_worse [NeZero n] (a : LArgs) (X : Fin n → Fin p → ℝ) (y sw : Fin n → ℝ) (hsw : ∀ i, 0 ≤ sw i)
    (hl2 : 0 ≤ a.alpha * (1 - a.l1)) (hs : a.std = true → a.fi = true) (hy : ∃ i i', y i ≠ y i')
    (hw : a.warm = false) (o o' : PObj p) (w : Option String) (h : LbfgsFit a X y sw o (.ok o') w) :
    let sd : Fin p → ℝ := if a.std then colSd X else fun _ => 1
    ∃ (c : Fin p → ℝ) (b : ℝ), o'.coef = some c ∧ (a.fi = true → o'.intercept = some (b : WithBot ℝ)) ∧
      (a.fi = false → b = 0) ∧
      enetObj X y sw a.alpha a.l1 sd b c ≤ enetObj X y sw a.alpha a.l1 sd 0 fun _ => 0 := by
  intro sd
  obtain ⟨x0, x, hx0, rfl, hle⟩ := fit_no_worse hsw hl2 hy h
  rw [poisStart_cold _ _ _ hw] at hx0
  cases hx0
  obtain ⟨c, b, h1, h2, h3, rfl⟩ := store_solver a X hs o x
  have hu : unitOf a X = sd := by
    unfold unitOf sd
    split_ifs
    · funext j; exact scale_eq X j
    · rfl
  refine ⟨c, b, h1, h2, fun hf => (h3 hf).1, ?_⟩
  have hz : (fun _ => 0 : Fin (a.size p) → ℝ) = joinParts a (toSolver a X (fun _ => 0) 0).1
      (toSolver a X (fun _ => 0) 0).2 := by
    funext i
    unfold toSolver joinParts
    split_ifs <;> simp
  rw [hz, pen_solver a X y sw hs c b (fun hf => (h3 hf).1), pen_solver a X y sw hs _ 0 (fun _ => rfl), hu] at hle
  exact hle

example : ∃ (c : Fin 1 → ℝ) (b : ℝ), (poisStore exL exLX PObj.new fun _ => 0).coef = some c ∧
    (exL.fi = true → (poisStore exL exLX PObj.new fun _ => 0).intercept = some (b : WithBot ℝ)) ∧
      (exL.fi = false → b = 0) ∧
      enetObj exLX exLy (fun _ => 1) 2 1 (colSd exLX) b c ≤ enetObj exLX exLy (fun _ => 1) 2 1 (colSd exLX) 0 fun _ => 0 :=
  C89_no_worse exL exLX exLy (fun _ => 1) (fun _ => zero_le_one) (by norm_num [exL]) (fun _ => rfl)
    ⟨0, 1, by norm_num [exLy]⟩ rfl _ _ _ exLFit

/-! ### C90 -/

/-- **C90**: a fit with an L1 penalty, from a cold start and to data of ordinary size, does not raise.
    Ordinary: entries of the features of at most `M` in absolute value (with `standardize`:
    at most `M²` rows), responses between 0 and `Y`, sample weights of at most `W`, and
    `(p + 1) * (M W Y + alpha * l1_ratio)² ≤ 10^28`. -/
theorem C90_no_error [NeZero n] (a : LArgs) (X : Fin n → Fin p → ℝ) (y sw : Fin n → ℝ) (M Y W : ℝ) (hM : 1 ≤ M)
    (hX : a.std = false → ∀ i j, |X i j| ≤ M) (hn : a.std = true → (n : ℝ) ≤ M ^ 2) (hY : 1 ≤ Y)
    (hy : ∀ i, 0 ≤ y i ∧ y i ≤ Y) (hsw : ∀ i, |sw i| ≤ W) (hc : 0 < a.alpha * a.l1) (ht : 1 / 10 ^ 20 ≤ a.tol)
    (hw : a.warm = false) (hp : 0 < p) (hsize : (p + 1 : ℝ) * (M * (W * Y) + a.alpha * a.l1) ^ 2 ≤ 10 ^ 28) (o : PObj p)
    (r : Except PyErr (PObj p)) (w : Option String) (h : LbfgsFit a X y sw o r w) : ∃ v, r = .ok v := by
  rcases h with ⟨-, rfl, -⟩ | ⟨-, x0, hx0, res, tr, hf, h⟩
  · exact ⟨_, rfl⟩
  rcases h with ⟨x, w, -, hr, -⟩ | ⟨e, msg, rfl, hr, -⟩
  · exact ⟨_, hr⟩
  exfalso
  rw [poisStart_cold _ _ _ hw] at hx0
  cases hx0
  have ht0 : 0 ≤ a.tol := le_trans (by positivity) ht
  have hs : 0 < a.size p := Nat.lt_of_lt_of_le hp (Nat.le_add_right _ _)
  obtain ⟨hpar, hck⟩ := pois_accepted hc ht0 hs
  generalize hres : Res.raised e msg = res at hf
  cases hf with
  | bad he => rw [hpar] at he; cases he
  | @run q u hq hl =>
    rw [hpar] at hq
    cases hq
    have hZ : ∀ i j, |preX a X i j| ≤ M := by
      intro i j
      unfold preX
      cases hstd : a.std with
      | false => simpa using hX hstd i j
      | true =>
        simp only [if_true]
        exact (apply_le X i j).trans ((Real.sqrt_le_left (by linarith)).2 (hn hstd))
    have hY1 : ∀ i, |y i - 1| ≤ Y := fun i => by
      rw [abs_le]; constructor <;> linarith [(hy i).1, (hy i).2]
    have hW0 : 0 ≤ W := (abs_nonneg _).trans (hsw 0)
    have h20 : Int.toNat 20 - 1 = 19 := rfl
    have hMWY : 0 ≤ M * (W * Y) := mul_nonneg (by linarith) (mul_nonneg hW0 (by linarith))
    have hcode := lbfgs_owlqn_codes (B := 10 ^ 14) (p := { (poisArgs a p).par with linesearch := 2 }) rfl hck hc (by simp [poisArgs]) rfl
      (by norm_num [poisArgs]) (by norm_num [poisArgs]) (by norm_num [poisArgs, h20]) (by norm_num [poisArgs])
      (by norm_num [poisArgs, h20]) (by
        have : (1 : ℝ) ≤ 10 ^ 20 * (1 / 10 ^ 20) := by norm_num
        exact this.trans (mul_le_mul_of_nonneg_left ht (by positivity))) (by
        rw [Real.sqrt_le_left (by positivity)]
        have hb : ∀ i, pseudoGradient (fun _ => 0) ((poisCallables a (preX a X) y sw).env.eval fun _ => 0).2
            (a.alpha * a.l1) 0 (p : Int) i ^ 2 ≤ (M * (W * Y) + a.alpha * a.l1) ^ 2 := by
          intro i
          have k1 := Verif.Logistic.abs_pseudoGradient_le (fun _ => 0)
            ((poisCallables a (preX a X) y sw).env.eval fun _ => 0).2 hc.le 0 (p : Int) i
          have k2 : |((poisCallables a (preX a X) y sw).env.eval fun _ => 0).2 i| ≤ M * (W * Y) :=
            flat_grad_zero a _ y sw hM hZ hY1 hsw (by linarith) hW0 i
          rw [← sq_abs]
          exact pow_le_pow_left₀ (abs_nonneg _) (by linarith) 2
        refine (Finset.sum_le_sum fun i _ => hb i).trans ?_
        rw [Finset.sum_const, Finset.card_univ, Fintype.card_fin, nsmul_eq_mul]
        have : (a.size p : ℝ) ≤ p + 1 := by
          unfold LArgs.size
          split_ifs <;> push_cast <;> linarith
        calc (a.size p : ℝ) * (M * (W * Y) + a.alpha * a.l1) ^ 2 ≤ (p + 1) * (M * (W * Y) + a.alpha * a.l1) ^ 2 :=
              mul_le_mul_of_nonneg_right this (sq_nonneg _)
          _ ≤ 10 ^ 28 := hsize
          _ = (10 ^ 14) ^ 2 := by norm_num) hl
    rcases hcode with h | h | h | h | ⟨cb, x, g, a1, a2, a3, a4, k, l, hne, h⟩
    · simp only [finish, h] at hres; cases hres
    · simp only [finish, h] at hres; cases hres
    · simp only [finish, h] at hres; cases hres
    · simp only [finish, h] at hres; cases hres
    · exact hne h

/-- **C90 (existence)**: with an iteration limit such a fit has exactly one result. -/
theorem C90_ends (a : LArgs) (X : Fin n → Fin p → ℝ) (y sw : Fin n → ℝ) (o : PObj p) (hm : a.maxIter ≠ 0)
    (hw : a.warm = false) :
    ∃ r w, LbfgsFit a X y sw o r w ∧ ∀ r' w', LbfgsFit a X y sw o r' w' → r' = r ∧ w' = w :=
  fit_ends a X y sw o hm (.inr ⟨_, poisStart_cold _ _ _ hw⟩)

-- A smaller penalty, and responses 0 and 5: the fit exists and does not raise.
example : ∃ v w, LbfgsFit ⟨1 / 7, 1 / 2, 1 / 10 ^ 5, 100, true, true, false⟩ exLX (fun i => if i = 0 then 0 else 5)
    (fun _ => 1) PObj.new (.ok v) w := by
  obtain ⟨r, w, h, -⟩ := C90_ends ⟨1 / 7, 1 / 2, 1 / 10 ^ 5, 100, true, true, false⟩ exLX
    (fun i => if i = 0 then 0 else 5) (fun _ => 1) PObj.new (by norm_num) rfl
  obtain ⟨v, rfl⟩ := C90_no_error _ exLX _ _ 2 5 1 (by norm_num) (fun h => by cases h) (fun _ => by norm_num)
    (by norm_num) (fun i => by split_ifs <;> norm_num) (fun i => by norm_num) (by norm_num) (by norm_num) rfl one_pos
    (by norm_num) PObj.new r w h
  exact ⟨v, w, h⟩

/-! ### C91 -/

/-- **C91**: a warm-started fit is not worse than the solution it starts from, if the features are not
    standardized (or the previous model does not depend on their means). -/
theorem C91_partial [NeZero n] (a : LArgs) (X : Fin n → Fin p → ℝ) (y sw : Fin n → ℝ) (hsw : ∀ i, 0 ≤ sw i)
    (hl2 : 0 ≤ a.alpha * (1 - a.l1)) (hs : a.std = true → a.fi = true) (hy : ∃ i i', y i ≠ y i')
    (hw : a.warm = true) (o o' : PObj p) (c0 : Fin p → ℝ) (b0 : ℝ) (hc0 : o.coef = some c0)
    (hb0 : if a.fi then o.intercept = some (b0 : WithBot ℝ) else b0 = 0)
    (hmu : a.std = true → ∑ j, colMean X j * c0 j = 0) (w : Option String) (h : LbfgsFit a X y sw o (.ok o') w) :
    let sd : Fin p → ℝ := if a.std then colSd X else fun _ => 1
    ∃ (c : Fin p → ℝ) (b : ℝ), o'.coef = some c ∧ (a.fi = true → o'.intercept = some (b : WithBot ℝ)) ∧
      (a.fi = false → b = 0) ∧
      enetObj X y sw a.alpha a.l1 sd b c ≤ enetObj X y sw a.alpha a.l1 sd b0 c0 := by
  intro sd
  obtain ⟨x0, x, hx0, rfl, hle⟩ := fit_no_worse hsw hl2 hy h
  obtain ⟨c, b, h1, h2, h3, rfl⟩ := store_solver a X hs o x
  have hu : unitOf a X = sd := by
    unfold unitOf sd
    split_ifs
    · funext j; exact scale_eq X j
    · rfl
  refine ⟨c, b, h1, h2, fun hf => (h3 hf).1, ?_⟩
  have hmean : (standardScaler true X).mean = colMean X := rfl
  have hz : x0 = joinParts a (toSolver a X c0 b0).1 (toSolver a X c0 b0).2 := by
    unfold poisStart at hx0
    cases hf : a.fi with
    | false =>
      have hstd : a.std = false := by
        cases h : a.std with
        | false => rfl
        | true => rw [hs h] at hf; cases hf
      rw [hf] at hb0
      simp only [Bool.false_eq_true, if_false] at hb0
      simp [hw, hf, hc0, hstd] at hx0
      rw [← hx0, hb0]
      simp [toSolver, hstd]
    | true =>
      rw [hf] at hb0
      simp only [if_true] at hb0
      rw [hb0] at hx0
      cases hstd : a.std with
      | false =>
        simp [hw, hf, hc0, hstd] at hx0
        rw [← hx0]
        simp [toSolver, hstd]
      | true =>
        simp [hw, hf, hc0, hstd] at hx0
        rw [← hx0]
        simp only [toSolver, hstd, if_true, hmean, hmu hstd, add_zero]
        simp only [mul_comm]
  rw [hz, pen_solver a X y sw hs c b (fun hf => (h3 hf).1), pen_solver a X y sw hs c0 b0
    (fun hf => by rw [hf] at hb0; simpa using hb0), hu] at hle
  exact hle

/-- Settings of the examples with a warm start. -/
noncomputable def exW (std : Bool) : LArgs := ⟨1, 1, 1, 100, true, std, true⟩

/-- The response 0, 1. -/
def exWy : Fin 2 → ℝ := fun i => if i = 0 then 0 else 1

/-- A previous solution. -/
noncomputable def exWo : PObj 1 := ⟨some fun _ => 1, some ((-3 : ℝ) : WithBot ℝ)⟩

-- C91: without standardization such a fit exists and is not worse.
example : ∃ r w, LbfgsFit (exW false) exLX exWy (fun _ => 1) exWo r w ∧ ∀ o', r = .ok o' →
    ∃ (c : Fin 1 → ℝ) (b : ℝ), o'.coef = some c ∧ ((exW false).fi = true → o'.intercept = some (b : WithBot ℝ)) ∧
      ((exW false).fi = false → b = 0) ∧
      enetObj exLX exWy (fun _ => 1) 1 1 (fun _ => 1) b c ≤ enetObj exLX exWy (fun _ => 1) 1 1 (fun _ => 1) (-3) fun _ => 1 := by
  obtain ⟨r, w, h, -⟩ := fit_ends (exW false) exLX exWy (fun _ => 1) exWo (by norm_num [exW])
    (.inr ⟨joinParts (exW false) (fun _ => 1) (-3), rfl⟩)
  refine ⟨r, w, h, ?_⟩
  rintro o' rfl
  exact C91_partial (exW false) exLX exWy (fun _ => 1) (fun _ => zero_le_one) (by norm_num [exW]) (fun h => by cases h)
    ⟨0, 1, by norm_num [exWy]⟩ rfl exWo o' (fun _ => 1) (-3) rfl rfl (fun h => by cases h) w h

/-- C91 is false with `standardize`: the coefficients are converted to the units of the solver but the
    intercept is not, so the fit starts from another model.  Here a fit with a tolerance of 1 to the same
    data returns at once, with an intercept shifted by the mean of the feature and a larger objective. -/
theorem C91_negation : ∃ o', LbfgsFit (exW true) exLX exWy (fun _ => 1) exWo (.ok o') none ∧
    o'.coef = some (fun _ => 1) ∧ o'.intercept = some ((-4 : ℝ) : WithBot ℝ) ∧
    enetObj exLX exWy (fun _ => 1) 1 1 (colSd exLX) (-3) (fun _ => 1) <
      enetObj exLX exWy (fun _ => 1) 1 1 (colSd exLX) (-4) fun _ => 1 := by
  have hst : poisStart (exW true) exLX exWo = some (joinParts (exW true) (fun _ => 1) (-3)) := by
    unfold poisStart exW exWo
    simp only [if_true, Bool.and_self]
    congr 2
    funext j
    have : j = 0 := Subsingleton.elim _ _
    subst this
    rw [exL_scaler.2, one_mul]
  have hpost : poisStore (exW true) exLX exWo (joinParts (exW true) (fun _ => 1) (-3)) =
      ⟨some (poisPost true true (standardScaler true exLX) (fun _ => 1) ((-3 : ℝ) : WithBot ℝ)).1,
        some (poisPost true true (standardScaler true exLX) (fun _ => 1) ((-3 : ℝ) : WithBot ℝ)).2⟩ := by
    have hI : interceptPart (exW true) (joinParts (exW true) (fun _ : Fin 1 => (1 : ℝ)) (-3)) = some (-3) := rfl
    unfold poisStore
    rw [hI, coefPart_join]
    rfl
  refine ⟨_, fit_already (by norm_num [exW]) (by norm_num [exW]) (by decide) ⟨0, 1, by norm_num [exWy]⟩ hst ?_, ?_, ?_, ?_⟩
  · set x0 : Fin ((exW true).size 1) → ℝ := joinParts (exW true) (fun _ => 1) (-3) with hx0
    have hI : interceptPart (exW true) x0 = some (-3) := rfl
    have hC : coefPart (exW true) x0 = fun _ => 1 := by rw [hx0, coefPart_join]
    have e4 : Real.exp (-4) ≤ 1 := by rw [Real.exp_le_one_iff]; norm_num
    have e2 : Real.exp (-2) ≤ 1 := by rw [Real.exp_le_one_iff]; norm_num
    have p4 := Real.exp_pos (-4)
    have p2 := Real.exp_pos (-2)
    have hg : ∀ i, |pseudoGradient x0 (flatLoss (exW true) (preX (exW true) exLX) exWy (fun _ => 1) x0).2
        ((exW true).alpha * (exW true).l1) 0 ((1 : Nat) : Int) i| ≤ 1 := by
      intro i
      have hi : i.val = 0 ∨ i.val = 1 := by have : i.val < 2 := i.isLt; omega
      rw [exL_pre rfl]
      unfold pseudoGradient flatLoss
      rw [hI, hC]
      have hs3 : (-3 : ℝ) + -1 = -4 := by norm_num
      have hs2 : (-3 : ℝ) + 1 = -2 := by norm_num
      rcases hi with h | h
      · have hxi : x0 i = 1 := by rw [hx0]; simp [joinParts, h]
        rw [hxi]
        simp [h, joinParts, lossGrad, dot, exWy, exW, hs3, hs2]
        rw [if_neg (by norm_num), abs_le]
        constructor <;> linarith
      · simp [h, joinParts, lossGrad, dot, exWy, exW, hs3, hs2]
        rw [abs_le]
        constructor <;> linarith
    have hsum : ∑ i, pseudoGradient x0 (flatLoss (exW true) (preX (exW true) exLX) exWy (fun _ => 1) x0).2
        ((exW true).alpha * (exW true).l1) 0 ((1 : Nat) : Int) i ^ 2 ≤ ∑ i, x0 i ^ 2 := by
      have k1 : ∀ i, pseudoGradient x0 (flatLoss (exW true) (preX (exW true) exLX) exWy (fun _ => 1) x0).2
          ((exW true).alpha * (exW true).l1) 0 ((1 : Nat) : Int) i ^ 2 ≤ x0 i ^ 2 := by
        intro i
        rw [← sq_abs]
        have h1 := pow_le_pow_left₀ (abs_nonneg _) (hg i) 2
        have hi : i.val = 0 ∨ i.val = 1 := by have : i.val < 2 := i.isLt; omega
        refine h1.trans ?_
        rcases hi with h | h <;> rw [hx0] <;> simp [joinParts, h]
      exact Finset.sum_le_sum fun i _ => k1 i
    refine (Real.sqrt_le_sqrt hsum).trans ?_
    have : (exW true).tol = 1 := rfl
    rw [this, one_mul]
    exact le_max_right _ _
  · rw [hpost]
    refine congrArg some (funext fun j => ?_)
    have : j = 0 := Subsingleton.elim _ _
    subst this
    simp only [poisPost, if_true]
    rw [exL_scaler.2, div_one]
  · rw [hpost]
    simp only [poisPost, if_true]
    simp [exL_scaler]
    rw [← WithBot.coe_add]
    norm_num
  · have h1 : Real.exp (-1) < 1 := by rw [Real.exp_lt_one_iff]; norm_num
    have h2 : Real.exp (-3) < Real.exp (-2) := Real.exp_lt_exp.2 (by norm_num)
    have h3 := Real.exp_pos (-4)
    have hs1 : (-3 : ℝ) + 2 = -1 := by norm_num
    have hs2 : (-4 : ℝ) + 2 = -2 := by norm_num
    unfold enetObj
    simp [smoothLoss, exLX, exWy, hs1, hs2]
    linarith

/-! ### C92: a fit starts afresh from a degenerate one -/

/-- C92 is false with `warm_start`: after a fit to a response of zeros the intercept is minus infinity.
    The next fit starts there.  The norm of the starting point is infinite, so the relative test of the
    optimiser holds at once, and whatever the new data are, the optimiser returns its starting point
    without a warning and the model predicts 0 everywhere. -/
theorem C92_negation [NeZero n] (fexp fsqrt : Flt → Flt) (he : fexp .ninf = .fin 0)
    (hs : ∀ q : ℚ, 0 ≤ q → ∃ r : ℚ, fsqrt (.fin q) = .fin r) (hsi : fsqrt .pinf = .pinf) (a : LArgs)
    (hfi : a.fi = true) (l2 c tol : ℚ) (hc : 0 ≤ c) (ht : 0 ≤ tol) (X : Fin n → Fin p → ℚ) (y : Fin n → ℚ)
    (scale mean : Fin p → ℚ) (hsc : ∀ j, scale j ≠ 0) (maxIter : Nat) :
    Fmin (fltCallables fexp fsqrt a (.fin l2) (fun i j => .fin (X i j)) fun i => .fin (y i))
      (fltArgs (.fin c) (.fin tol) maxIter p) (fltStart a fun j => .fin (scale j)) ()
      (.returned (fltStart a fun j => .fin (scale j)) none) [fltStart a fun j => .fin (scale j)] ∧
    ∀ z : Fin p → ℚ, fltPredict fexp a (fun j => .fin (scale j)) (fun j => .fin (mean j))
      (fltStart a fun j => .fin (scale j)) (fun j => .fin (z j)) = .fin 0 :=
  ⟨flt_stuck fexp fsqrt a he hs hsi hfi l2 c tol hc ht X y scale maxIter,
    flt_predict fexp a he hfi scale mean hsc⟩

/-- A function that is zero at minus infinity, in place of `exp`, for the example. -/
def exExp : Flt → Flt
  | .ninf => .fin 0
  | .fin q => .fin (1 + q)
  | x => x

/-- In place of the square root; correct at 0, 1 and infinity. -/
def exSqrt : Flt → Flt := id

-- The response is 1, 3, the features are 0, 2.
example : Fmin (n := (exW true).size 1) (fltCallables exExp exSqrt (exW true) (.fin 0)
      (fun i (_ : Fin 1) => .fin (if i = (0 : Fin 2) then 0 else 2)) fun i => .fin (if i = 0 then 1 else 3))
    (fltArgs (.fin 1) (.fin 0) 100 1) (fltStart (exW true) fun _ : Fin 1 => .fin 1) ()
    (.returned (fltStart (exW true) fun _ : Fin 1 => .fin 1) none) [fltStart (exW true) fun _ : Fin 1 => .fin 1] :=
  (C92_negation (n := 2) exExp exSqrt rfl (fun _ _ => ⟨_, rfl⟩) rfl (exW true) rfl 0 1 0 zero_le_one le_rfl
    (fun i (_ : Fin 1) => if i = 0 then 0 else 2) (fun i => if i = 0 then 1 else 3) (fun _ => 1) (fun _ => 1)
    (fun _ => one_ne_zero) 100).1

/-- C92 when the previous intercept is not minus infinity: there is a result, and a fit that succeeds for
    a response that is not constant gives a finite intercept and positive means. -/
theorem C92_partial [NeZero n] (a : LArgs) (hfi : a.fi = true) (hm : a.maxIter ≠ 0) (X : Fin n → Fin p → ℝ)
    (y sw : Fin n → ℝ) (hy : ∃ i i', y i ≠ y i') (o : PObj p) (ho : o.intercept ≠ some ⊥) :
    ∃ r w, LbfgsFit a X y sw o r w ∧ ∀ o', r = .ok o' →
      (∃ b : ℝ, o'.intercept = some (b : WithBot ℝ)) ∧
      ∀ (m : Nat) (Z : Fin m → Fin p → ℝ), ∃ mu, o'.predictMean Z = .ok mu ∧ ∀ i, 0 < mu i := by
  have hst : ∃ x0, poisStart a X o = some x0 := by
    unfold poisStart
    rcases hi : o.intercept with _ | b
    · split_ifs <;> exact ⟨_, rfl⟩
    · cases b with
      | bot => exact absurd hi ho
      | coe b => split_ifs <;> exact ⟨_, rfl⟩
  obtain ⟨r, w, h, -⟩ := fit_ends a X y sw o hm (.inr hst)
  refine ⟨r, w, h, ?_⟩
  rintro o' rfl
  obtain ⟨i, i', hne⟩ := hy
  rcases h with ⟨h, -⟩ | ⟨-, x0, -, res, tr, -, ⟨x, w', -, hr, -⟩ | ⟨e, msg, -, hr, -⟩⟩
  · exact absurd (h i i') hne
  · cases hr
    obtain ⟨b, hb⟩ : ∃ b : ℝ, interceptPart a x = some b := ⟨_, dif_pos hfi⟩
    obtain ⟨c', b', h1⟩ : ∃ (c' : Fin p → ℝ) (b' : ℝ), poisStore a X o x = ⟨some c', some (b' : WithBot ℝ)⟩ := by
      unfold poisStore
      rw [hb]
      unfold poisPost
      cases a.std with
      | true => exact ⟨_, b + _, rfl⟩
      | false => exact ⟨_, _, rfl⟩
    refine ⟨⟨b', by rw [h1]⟩, fun m Z => ⟨_, by rw [h1]; rfl, fun i => ?_⟩⟩
    exact Real.exp_pos _
  · cases hr

-- A new object, fitted to the response 0, 1.
example : ∃ r w, LbfgsFit (exW true) exLX exWy (fun _ => 1) PObj.new r w ∧ ∀ o', r = .ok o' →
    (∃ b : ℝ, o'.intercept = some (b : WithBot ℝ)) ∧
    ∀ (m : Nat) (Z : Fin m → Fin 1 → ℝ), ∃ mu, o'.predictMean Z = .ok mu ∧ ∀ i, 0 < mu i :=
  C92_partial (exW true) rfl (by norm_num [exW]) exLX exWy (fun _ => 1) ⟨0, 1, by norm_num [exWy]⟩ PObj.new
    (fun h => by cases h)

/-! ### C93: without `warm_start` earlier fits do not matter -/

/-- C93 with an intercept, for both solvers. -/
theorem C93_partial (a : LArgs) (hw : a.warm = false) (hfi : a.fi = true) (X : Fin n → Fin p → ℝ)
    (y sw : Fin n → ℝ) (o : PObj p) :
    (∀ r w, LbfgsFit a X y sw o r w ↔ LbfgsFit a X y sw PObj.new r w) ∧
    (∀ (pen : Pen) (tol : ℝ) (maxIter : Nat) (c0 : Fin p → ℝ) (b0 : ℝ),
      cd pen tol maxIter false c0 b0 X y = cd pen tol maxIter false (fun _ => 0) 0 X y) ∧
    ∀ solve, o.fit true y solve = PObj.new.fit true y solve := by
  refine ⟨fun r w => ?_, fun _ _ _ _ _ => rfl, fun solve => ?_⟩
  · have h1 : poisStart a X o = poisStart a X PObj.new := by simp [poisStart, hw]
    have h2 : ∀ x, poisStore a X o x = poisStore a X PObj.new x := by
      intro x
      obtain ⟨b, hb⟩ : ∃ b : ℝ, interceptPart a x = some b := ⟨_, dif_pos hfi⟩
      unfold poisStore
      rw [hb]
    unfold LbfgsFit
    simp only [h1, h2]
  · unfold PObj.fit
    simp

-- The previous object of the examples above.
example : ∀ r w, LbfgsFit exL exLX exLy (fun _ => 1) exWo r w ↔ LbfgsFit exL exLX exLy (fun _ => 1) PObj.new r w :=
  (C93_partial exL rfl rfl exLX exLy (fun _ => 1) exWo).1

/-- Settings without an intercept. -/
noncomputable def exN : LArgs := ⟨1, 1, 1, 100, false, false, false⟩

/-- C93 is false without an intercept: a fit to a constant response sets `intercept_`, later fits leave it
    as it is, and the predictions use it.  Here the data are the same; a new object cannot predict, one
    that was fitted to the response 5, 5 before predicts 5. -/
theorem C93_negation :
    ∃ o, LbfgsFit exN exLX (fun _ => 5) (fun _ => 1) PObj.new (.ok o) none ∧
      ∃ o1 o2, LbfgsFit exN exLX exWy (fun _ => 1) PObj.new (.ok o1) none ∧
        LbfgsFit exN exLX exWy (fun _ => 1) o (.ok o2) none ∧
        o1.predictMean exLX = .error .notFitted ∧ o2.predictMean exLX = .ok fun _ => 5 := by
  refine ⟨_, .inl ⟨fun _ _ => rfl, rfl, rfl⟩, ?_⟩
  have key : ∀ o : PObj 1, LbfgsFit exN exLX exWy (fun _ => 1) o
      (.ok (poisStore exN exLX o (joinParts exN (fun _ => 0) 0))) none := by
    intro o
    have hg : ∀ i, pseudoGradient (joinParts exN (fun _ : Fin 1 => (0 : ℝ)) 0) (flatLoss exN (preX exN exLX) exWy (fun _ => 1)
        (joinParts exN (fun _ : Fin 1 => (0 : ℝ)) 0)).2 (exN.alpha * exN.l1) 0 ((1 : Nat) : Int) i = 0 := by
      intro i
      have hi : i.val = 0 := by have : i.val < 1 := i.isLt; omega
      have hI : interceptPart exN (joinParts exN (fun _ : Fin 1 => (0 : ℝ)) 0) = none := rfl
      have hX : preX exN exLX = exLX := rfl
      unfold pseudoGradient flatLoss
      rw [hI, coefPart_join, hX]
      simp [hi, joinParts, lossGrad, dot, exWy, exN, exLX]
      norm_num
    refine fit_already (by norm_num [exN]) (by norm_num [exN]) (by decide) ⟨0, 1, by norm_num [exWy]⟩
      (x0 := joinParts exN (fun _ => 0) 0) ?_ ?_
    · simp [poisStart, exN]
    · simp only [hg]
      have h0 : Real.sqrt (∑ _i : Fin (exN.size 1), (0 : ℝ) ^ 2) = 0 := by simp
      rw [h0]
      exact mul_nonneg (by norm_num [exN]) (le_max_of_le_left zero_le_one)
  refine ⟨_, _, key _, key _, ?_, ?_⟩
  · rfl
  · have h5 : poisInterceptOnly (fun _ : Fin 2 => (5 : ℝ)) = ((Real.log 5 : ℝ) : WithBot ℝ) := by
      unfold poisInterceptOnly
      rw [if_pos ⟨0, by norm_num⟩]
      congr 2
      simp [Verif.Utils.mean]
    have h6 : poisStore exN exLX ⟨some fun _ => 0, some (poisInterceptOnly fun _ : Fin 2 => (5 : ℝ))⟩
        (joinParts exN (fun _ => 0) 0) = ⟨some fun _ => 0, some ((Real.log 5 : ℝ) : WithBot ℝ)⟩ := by
      rw [← h5]
      have hI : interceptPart exN (joinParts exN (fun _ : Fin 1 => (0 : ℝ)) 0) = none := rfl
      unfold poisStore
      rw [hI, coefPart_join]
      rfl
    rw [h6]
    unfold PObj.predictMean Scaling.predictMean poisPred
    simp [expB, Real.exp_log]

end Verif.Poisson
