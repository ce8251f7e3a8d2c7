import Verif.Model.LogisticL1
import Verif.Lemmas.Logistic
import Verif.Props.LbfgsLoop
import Verif.Props.LbfgsDir
/-!
Facts about the L1-penalised logistic fits.
-/
namespace Verif.Logistic
open Verif.Py Verif.Lbfgs Verif.Lbfgs.Spec Verif.Spec.Logistic

variable {n : Nat}

/-- The position of the coefficient of class `c` and feature `j` in the optimiser's vector. -/
def pos (a : PathArgs) (c j : Nat) : Nat := if a.multi then j * a.k + c else j

theorem rows_eq (a : PathArgs) : a.rows = if a.multi then a.k else 1 := rfl

theorem pos_lt {a : PathArgs} {c j : Nat} (hc : c < a.rows) (hj : j < a.cols) : pos a c j < a.size := by
  unfold pos PathArgs.size
  rw [rows_eq] at hc ⊢
  cases hm : a.multi with
  | false => simpa using hj
  | true =>
    rw [hm] at hc
    simp only [if_true] at hc ⊢
    calc j * a.k + c < j * a.k + a.k := by omega
      _ = (j + 1) * a.k := by ring
      _ ≤ a.cols * a.k := Nat.mul_le_mul_right _ hj
      _ = _ := mul_comm _ _

theorem pos_lt_coef {a : PathArgs} {c j : Nat} (hc : c < a.rows) : pos a c j < a.coefSize ↔ j < a.p := by
  unfold pos PathArgs.coefSize
  rw [rows_eq] at hc ⊢
  cases hm : a.multi with
  | false => simp
  | true =>
    rw [hm] at hc
    simp only [if_true] at hc ⊢
    constructor
    · intro h
      by_contra hj
      have := Nat.mul_le_mul_right a.k (not_lt.1 hj)
      rw [mul_comm a.k] at h
      omega
    · intro hj
      calc j * a.k + c < j * a.k + a.k := by omega
        _ = (j + 1) * a.k := by ring
        _ ≤ a.p * a.k := Nat.mul_le_mul_right _ hj
        _ = _ := mul_comm _ _

/-- The starting vector, entry by entry. -/
theorem l1Start_pos {a : PathArgs} {c j : Nat} (hc : c < a.rows) (hj : j < a.cols) :
    l1Start a (pos a c j) = startPoint a c j := by
  unfold l1Start pos
  rw [rows_eq] at hc
  cases hm : a.multi with
  | false =>
    rw [hm] at hc
    have : c = 0 := by simpa using hc
    subst this
    have := reshape_ravel a.cols (startPoint a) 0 hj
    simpa [reshape] using this
  | true =>
    rw [hm] at hc
    exact reshape_ravel_T a.k (startPoint a) j (by simpa using hc)

/-- The fitted entry is that of the optimiser's vector. -/
theorem path_point {a : PathArgs} {opt : Optimisers} (hl : a.l1 = true)
    (hmask : ∀ m, a.mask = some m → maskSum a m ≠ 0) {x : Nat → ℝ} (hx : opt.l1 (l1Start a) = .point x)
    {c j : Nat} (hc : c < a.rows) (_hj : j < a.cols) : path a opt c j = x (pos a c j) := by
  unfold path pos
  rw [rows_eq] at hc
  unfold l1Start at hx
  cases hmu : a.multi with
  | false =>
    rw [hmu] at hc hx
    have : c = 0 := by simpa using hc
    subst this
    simp only [Bool.false_eq_true, if_false] at hx
    cases hm : a.mask with
    | none => simp [hl, hx, reshape]
    | some m => simp [hl, hx, reshape, hmask m hm]
  | true =>
    rw [hmu] at hx
    simp only [if_true] at hx
    cases hm : a.mask with
    | none => simp [hl, hx, reshape, transpose]
    | some m => simp [hl, hx, reshape, transpose, hmask m hm]

/-- The gradient of the objective for an excluded coefficient is zero. -/
theorem l1Func_masked {a : PathArgs} (d : L1Data n) {m : Nat → Nat → ℝ} (hm : a.mask = some m) {c j : Nat}
    (hc : c < a.rows) (hj : j < a.p) (h : m c j = 0) (x : Nat → ℝ) :
    (l1Func a d x).2 (pos a c j) = 0 := by
  unfold l1Func pos
  rw [rows_eq] at hc
  cases hmu : a.multi with
  | false =>
    rw [hmu] at hc
    have : c = 0 := by simpa using hc
    subst this
    simp only [Bool.false_eq_true, if_false, binFlat, dif_pos hj, hm, Option.map_some, binLossGrad, applyMask, h,
      mul_zero]
  | true =>
    rw [hmu] at hc
    simp only [if_true] at hc ⊢
    have h1 : (multiL1Func a.k a.cols (multiFlat a d) x).2 (j * a.k + c) =
        (multiFlat a d (ravel a.cols (transpose (reshape a.k x)))).2 (c * a.cols + j) :=
      reshape_ravel a.k (transpose (reshape a.cols (multiFlat a d (ravel a.cols (transpose (reshape a.k x)))).2)) j hc
    rw [h1]
    have h2 := fun M => reshape_ravel a.cols M c (lt_cols hj)
    unfold multiFlat
    simp only
    refine (h2 _).trans ?_
    simp only [dif_pos hc, dif_pos hj, hm, Option.map_some, multiLossGrad, applyMaskM, h, mul_zero]

/-- The parameters of the run behind a call of `fmin_lbfgs` in a fit. -/
theorem l1_par {a : PathArgs} {C tol : ℝ} {maxIter : Nat} {p : Par ℝ} (h : fminPar (l1Args a C tol maxIter) = .ok p) :
    ∃ ls, p = { (l1Args a C tol maxIter).par with linesearch := ls } := by
  unfold fminPar at h
  split_ifs at h
  split at h
  · cases h
  · exact ⟨_, (Except.ok.inj h).symm⟩

/-- A returned array is the final point of the run. -/
theorem finish_returned {N : Nat} {o : Out N ℝ} {x : Fin N → ℝ} {w : Option String}
    (h : finish o = .returned x w) : x = o.x := by
  unfold finish at h
  split_ifs at h
  · exact (Res.returned.inj h).1.symm
  · rcases hmsg : message o.ret with _ | m
    · rw [hmsg] at h; cases h
    · rw [hmsg] at h; exact (Res.returned.inj h).1.symm
  · rcases hmsg : message o.ret with _ | m
    · rw [hmsg] at h; cases h
    · rw [hmsg] at h; cases h

/-- The excluded coefficients are zero in the returned array. -/
theorem l1Fit_masked {a : PathArgs} {d : L1Data n} {C tol : ℝ} {maxIter : Nat} {x : Nat → ℝ} {w : Option String}
    (h : L1Fit a d C tol maxIter (.ok (.point x)) w) {m : Nat → Nat → ℝ} (hm : a.mask = some m) {c j : Nat}
    (hc : c < a.rows) (hj : j < a.p) (hz : m c j = 0) : x (pos a c j) = 0 := by
  obtain ⟨res, tr, hf, ho, -⟩ := h
  have hlt := pos_lt hc (lt_cols hj)
  cases hf with
  | bad he =>
    unfold fminPar at he
    exfalso
    revert ho
    unfold l1Outcome
    split <;> rintro ⟨⟩
    rename_i heq
    cases heq
  | @run p o hp hl =>
    obtain ⟨ls, rfl⟩ := l1_par hp
    have hx : x = ofVec o.x := by
      rcases hfin : finish o with ⟨x', w'⟩ | ⟨e, msg⟩
      · rw [hfin] at ho
        have := finish_returned hfin
        subst this
        exact (L1Result.point.inj (Except.ok.inj ho)).symm
      · rw [hfin] at ho
        exfalso
        revert ho
        unfold l1Outcome
        split <;> rintro ⟨⟩
        rename_i heq
        cases heq
    have h0 : l1Start a (pos a c j) = 0 := (l1Start_pos hc (lt_cols hj)).trans (startPoint_masked hm hj hz)
    have := (C83_unused _ _ (by norm_num [l1Args]) _ _ o hl ⟨_, hlt⟩
      (fun v => l1Func_masked d hm hc hj hz (ofVec v)) _ rfl (.inr (.inr h0))).1
    rw [hx, ofVec, dif_pos hlt, this]
    exact h0

/-! ### Convexity -/

section
variable {p k : Nat}

/-- The gradient inequality of the binary loss. -/
theorem bin_convex (X : Fin n → Fin p → ℝ) (y : Fin n → ℝ) (mask : Option (Fin p → ℝ)) (sw : Fin n → ℝ)
    (hsw : ∀ i, 0 ≤ sw i) (w w' : Fin p → ℝ) (b b' : ℝ) :
    (binLossGrad X y 0 mask sw w (some b)).1 +
        (∑ j, (binLossGrad X y 0 mask sw w (some b)).2.1 j * (w' j - w j) +
          (binLossGrad X y 0 mask sw w (some b)).2.2.getD 0 * (b' - b)) ≤
      (binLossGrad X y 0 mask sw w' (some b')).1 := by
  rw [bin_value, bin_value]
  have hdir := bin_dir X (fun i => sw i * (expit (y i * (∑ j, X i j * applyMask mask w j + b)) - 1) * y i) 0
    (b' - b) (applyMask mask w) (fun j => w' j - w j) (mask.getD fun _ => 1)
  have hg : ∑ j, (binLossGrad X y 0 mask sw w (some b)).2.1 j * (w' j - w j) +
        (binLossGrad X y 0 mask sw w (some b)).2.2.getD 0 * (b' - b) =
      1 / n * ∑ i, sw i * (expit (y i * (∑ j, X i j * applyMask mask w j + b)) - 1) * y i *
        (b' - b + ∑ j, X i j * ((w' j - w j) * (mask.getD fun _ => 1) j)) := by
    have : ∀ z : ℝ, z = z + 0 * ∑ j, applyMask mask w j * ((w' j - w j) * (mask.getD fun _ => 1) j) := by
      intro z; ring
    rw [this (1 / (n : ℝ) * _), hdir]
    simp only [binLossGrad, Option.getD_some, Option.map_some]
    congr 1
    exact Finset.sum_congr rfl fun j _ => by rw [applyMask_mul]
  rw [hg]
  unfold binObj
  simp only [Option.getD_some, zero_div, zero_mul, add_zero, ← mul_add, ← Finset.sum_add_distrib]
  refine mul_le_mul_of_nonneg_left (Finset.sum_le_sum fun i _ => ?_) (by positivity)
  have h1 := softplus_tangent (y i * (b + ∑ j, X i j * applyMask mask w j))
    (y i * (b' + ∑ j, X i j * applyMask mask w' j))
  have h2 : b' + ∑ j, X i j * applyMask mask w' j - (b + ∑ j, X i j * applyMask mask w j) =
      b' - b + ∑ j, X i j * ((w' j - w j) * (mask.getD fun _ => 1) j) := by
    rw [add_sub_add_comm, ← Finset.sum_sub_distrib]
    congr 1
    refine Finset.sum_congr rfl fun j _ => ?_
    rw [applyMask_eq, applyMask_eq]; ring
  rw [← h2, add_comm (∑ j, X i j * applyMask mask w j) b]
  have := mul_le_mul_of_nonneg_left h1 (hsw i)
  refine le_trans (le_of_eq ?_) this
  ring

/-- The gradient inequality of the multinomial loss. -/
theorem multi_convex [NeZero k] (X : Fin n → Fin p → ℝ) (Y : Fin n → Fin k → ℝ) (hY : ∀ i, ∑ c, Y i c = 1)
    (mask : Option (Fin k → Fin p → ℝ)) (sw : Fin n → ℝ) (hsw : ∀ i, 0 ≤ sw i)
    (W W' : Fin k → Fin p → ℝ) (B B' : Fin k → ℝ) :
    (multiLossGrad X Y 0 mask sw W (some B)).1 +
        (∑ c, ∑ j, (multiLossGrad X Y 0 mask sw W (some B)).2.1 c j * (W' c j - W c j) +
          ∑ c, ((multiLossGrad X Y 0 mask sw W (some B)).2.2.getD fun _ => 0) c * (B' c - B c)) ≤
      (multiLossGrad X Y 0 mask sw W' (some B')).1 := by
  rw [multi_value X Y hY, multi_value X Y hY]
  have hdir := multi_dir X (fun i c => sw i * (Real.exp (logProb (fun c => ∑ j, X i j * applyMaskM mask W c j +
    B c) c) - Y i c)) 0 (fun c => B' c - B c) (applyMaskM mask W) (fun c j => W' c j - W c j)
    (mask.getD fun _ _ => 1)
  have hg : ∑ c, ∑ j, (multiLossGrad X Y 0 mask sw W (some B)).2.1 c j * (W' c j - W c j) +
          ∑ c, ((multiLossGrad X Y 0 mask sw W (some B)).2.2.getD fun _ => 0) c * (B' c - B c) =
      1 / n * ∑ i, ∑ c, sw i * (Real.exp (logProb (fun c => ∑ j, X i j * applyMaskM mask W c j + B c) c) - Y i c) *
        (B' c - B c + ∑ j, X i j * ((W' c j - W c j) * (mask.getD fun _ _ => 1) c j)) := by
    have : ∀ z : ℝ, z = z + 0 * ∑ c, ∑ j, applyMaskM mask W c j *
        ((W' c j - W c j) * (mask.getD fun _ _ => 1) c j) := by
      intro z; ring
    rw [this (1 / (n : ℝ) * _), hdir]
    simp only [multiLossGrad, Option.getD_some, Option.map_some]
    congr 1
    exact Finset.sum_congr rfl fun c _ => Finset.sum_congr rfl fun j _ => by rw [applyMaskM_mul]
  rw [hg]
  unfold multiObj
  simp only [Option.getD_some, zero_div, zero_mul, add_zero, ← mul_add, ← Finset.sum_add_distrib]
  refine mul_le_mul_of_nonneg_left (Finset.sum_le_sum fun i _ => ?_) (by positivity)
  have h1 := lse_tangent (fun c => B c + ∑ j, X i j * applyMaskM mask W c j)
    (fun c => B' c + ∑ j, X i j * applyMaskM mask W' c j)
  have h2 : ∀ c, B' c - B c + ∑ j, X i j * ((W' c j - W c j) * (mask.getD fun _ _ => 1) c j) =
      B' c + ∑ j, X i j * applyMaskM mask W' c j - (B c + ∑ j, X i j * applyMaskM mask W c j) := by
    intro c
    rw [add_sub_add_comm, ← Finset.sum_sub_distrib]
    congr 1
    refine Finset.sum_congr rfl fun j _ => ?_
    rw [applyMaskM_eq, applyMaskM_eq]; ring
  simp only [h2, add_comm (∑ j, X i j * applyMaskM mask W _ j)]
  have := mul_le_mul_of_nonneg_left h1 (hsw i)
  have h3 : ∑ c, sw i * (Real.exp (logProb (fun c => B c + ∑ j, X i j * applyMaskM mask W c j) c) - Y i c) *
        (B' c + ∑ j, X i j * applyMaskM mask W' c j - (B c + ∑ j, X i j * applyMaskM mask W c j)) =
      sw i * (∑ c, Real.exp (logProb (fun c => B c + ∑ j, X i j * applyMaskM mask W c j) c) *
        (B' c + ∑ j, X i j * applyMaskM mask W' c j - (B c + ∑ j, X i j * applyMaskM mask W c j)) -
        (∑ c, Y i c * (B' c + ∑ j, X i j * applyMaskM mask W' c j) -
          ∑ c, Y i c * (B c + ∑ j, X i j * applyMaskM mask W c j))) := by
    rw [← Finset.sum_sub_distrib, ← Finset.sum_sub_distrib, Finset.mul_sum]
    exact Finset.sum_congr rfl fun c _ => by ring
  rw [h3]
  simp only [mul_add, mul_sub] at this ⊢
  linarith

end

theorem sum_pos (a : PathArgs) (φ : Nat → ℝ) : ∑ i : Fin a.size, φ i =
    ∑ c ∈ Finset.range a.rows, ∑ j ∈ Finset.range a.cols, φ (pos a c j) := by
  rw [Fin.sum_univ_eq_sum_range (fun i => φ i)]
  unfold PathArgs.size pos
  rw [rows_eq]
  cases a.multi with
  | false => simp
  | true =>
    simp only [if_true]
    rw [mul_comm, sum_range_mul, Finset.sum_comm]

theorem sum_cols (a : PathArgs) (φ : Nat → ℝ) : ∑ j ∈ Finset.range a.cols, φ j =
    ∑ j : Fin a.p, φ j + if a.fi then φ a.p else 0 := by
  rw [Fin.sum_univ_eq_sum_range (fun i => φ i)]
  unfold PathArgs.cols
  cases a.fi with
  | false => simp
  | true => simp [Finset.sum_range_succ]

/-- The intercepts in the optimiser's vector. -/
def interceptOf (a : PathArgs) (x : Nat → ℝ) (c : Nat) : ℝ := if a.fi then x (pos a c a.p) else 0

/-- The objective and its gradient for a binary problem. -/
theorem l1Func_bin {a : PathArgs} (d : L1Data n) (hm : a.multi = false) (x : Nat → ℝ) :
    let g := binLossGrad (fun i (j : Fin a.p) => d.X i j) d.y 0 (a.mask.map fun m (j : Fin a.p) => m 0 j) d.sw
      (fun j => x j) (some (interceptOf a x 0))
    (l1Func a d x).1 = g.1 ∧ (∀ j : Fin a.p, (l1Func a d x).2 j = g.2.1 j) ∧
      (a.fi = true → (l1Func a d x).2 a.p = g.2.2.getD 0) := by
  unfold l1Func interceptOf pos
  simp only [hm, Bool.false_eq_true, if_false]
  unfold binFlat
  cases hf : a.fi with
  | false =>
    refine ⟨?_, fun j => ?_, fun h => by cases h⟩
    · simp [binLossGrad]
    · simp [binLossGrad]
  | true =>
    refine ⟨by simp, fun j => by simp, fun _ => by simp⟩

/-- The same for a multinomial problem. -/
theorem l1Func_multi {a : PathArgs} (d : L1Data n) (hm : a.multi = true) (x : Nat → ℝ) :
    let g := multiLossGrad (fun i (j : Fin a.p) => d.X i j) (fun i (c : Fin a.k) => d.Y i c) 0
      (a.mask.map fun m (c : Fin a.k) (j : Fin a.p) => m c j) d.sw (fun c j => x (pos a c j))
      (some fun c => interceptOf a x c)
    (l1Func a d x).1 = g.1 ∧ (∀ (c : Fin a.k) (j : Fin a.p), (l1Func a d x).2 (pos a c j) = g.2.1 c j) ∧
      (a.fi = true → ∀ c : Fin a.k, (l1Func a d x).2 (pos a c a.p) = (g.2.2.getD fun _ => 0) c) := by
  have hcol : a.fi = true → a.p < a.cols := fun h => by unfold PathArgs.cols; simp [h]
  have hw : ∀ (c : Fin a.k) (j : Nat), j < a.cols →
      reshape a.cols (ravel a.cols (transpose (reshape a.k x))) c j = x (pos a c j) := by
    intro c j hj
    rw [reshape_ravel _ _ _ hj]
    simp [transpose, reshape, pos, hm]
  have hgr : ∀ (c : Fin a.k) (j : Nat), j < a.cols → (l1Func a d x).2 (pos a c j) =
      (multiFlat a d (ravel a.cols (transpose (reshape a.k x)))).2 (c * a.cols + j) := by
    intro c j hj
    unfold l1Func pos
    rw [if_pos hm, if_pos hm]
    exact reshape_ravel a.k (transpose (reshape a.cols (multiFlat a d
      (ravel a.cols (transpose (reshape a.k x)))).2)) j c.isLt
  have hfl : ∀ (M : Nat → Nat → ℝ) (c : Fin a.k) (j : Nat), j < a.cols →
      ravel a.cols M (c * a.cols + j) = M c j := fun M c j hj => reshape_ravel a.cols M c hj
  have hb : (if a.fi = true then some fun c : Fin a.k =>
      reshape a.cols (ravel a.cols (transpose (reshape a.k x))) c a.p else none) =
      if a.fi = true then some fun c : Fin a.k => interceptOf a x c else none := by
    cases hf : a.fi with
    | false => rfl
    | true =>
      simp only [if_true]
      congr 1
      funext c
      rw [hw c a.p (hcol hf), interceptOf, if_pos hf]
  have hW : (fun (c : Fin a.k) (j : Fin a.p) => reshape a.cols (ravel a.cols (transpose (reshape a.k x))) c j) =
      fun (c : Fin a.k) (j : Fin a.p) => x (pos a c j) := by
    funext c j
    exact hw c j (lt_cols j.isLt)
  intro g
  refine ⟨?_, fun c j => ?_, fun hf c => ?_⟩
  · have : (l1Func a d x).1 = (multiFlat a d (ravel a.cols (transpose (reshape a.k x)))).1 := by
      unfold l1Func; rw [if_pos hm]; rfl
    rw [this]
    unfold multiFlat
    simp only [hb, hW]
    cases hf : a.fi with
    | false => simp [multiLossGrad, g, interceptOf, hf]
    | true => rfl
  · rw [hgr c j (lt_cols j.isLt)]
    unfold multiFlat
    simp only
    rw [hfl _ c j (lt_cols j.isLt), dif_pos c.isLt, dif_pos j.isLt]
    simp only [hb, hW]
    cases hf : a.fi with
    | false => simp [multiLossGrad, g, interceptOf, hf]
    | true => rfl
  · rw [hgr c a.p (hcol hf)]
    unfold multiFlat
    simp only
    rw [hfl _ c a.p (hcol hf), dif_pos c.isLt, dif_neg (lt_irrefl _)]
    simp only [hb, hW]
    simp [g, hf]

/-- The objective is convex. -/
theorem l1_convex {a : PathArgs} (d : L1Data n) (hsw : ∀ i, 0 ≤ d.sw i)
    (hY : a.multi = true → a.k ≠ 0 ∧ ∀ i, ∑ c : Fin a.k, d.Y i c = 1) :
    ConvexGrad (fun x : Fin a.size → ℝ => (l1Func a d (ofVec x)).1)
      (fun x i => (l1Func a d (ofVec x)).2 i) := by
  intro x x'
  have hdot : dot (fun i : Fin a.size => (l1Func a d (ofVec x)).2 i) (fun i => x' i - x i) =
      ∑ c ∈ Finset.range a.rows, ∑ j ∈ Finset.range a.cols,
        (l1Func a d (ofVec x)).2 (pos a c j) * (ofVec x' (pos a c j) - ofVec x (pos a c j)) := by
    rw [← sum_pos a (fun i => (l1Func a d (ofVec x)).2 i * (ofVec x' i - ofVec x i))]
    exact Finset.sum_congr rfl fun i _ => by simp [ofVec]
  simp only [hdot]
  generalize ofVec x = x
  generalize ofVec x' = x'
  cases hm : a.multi with
  | false =>
    obtain ⟨h1, h2, h3⟩ := l1Func_bin d hm x
    obtain ⟨h1', _, _⟩ := l1Func_bin d hm x'
    have hr : a.rows = 1 := by simp [rows_eq, hm]
    have hp : ∀ j, pos a 0 j = j := by intro j; simp [pos, hm]
    rw [hr, Finset.sum_range_one, sum_cols a]
    simp only [hp, h1, h1', h2]
    refine le_trans (le_of_eq ?_) (bin_convex _ d.y _ d.sw hsw (fun j : Fin a.p => x j) (fun j => x' j)
      (interceptOf a x 0) (interceptOf a x' 0))
    congr 2
    cases hf : a.fi with
    | false => simp [interceptOf, hf]
    | true => simp only [if_true, h3 hf]; simp [interceptOf, hf, hp]
  | true =>
    obtain ⟨h1, h2, h3⟩ := l1Func_multi d hm x
    obtain ⟨h1', _, _⟩ := l1Func_multi d hm x'
    have hr : a.rows = a.k := by simp [rows_eq, hm]
    have : NeZero a.k := ⟨(hY hm).1⟩
    rw [hr, ← Fin.sum_univ_eq_sum_range
      (fun c => ∑ j ∈ Finset.range a.cols, (l1Func a d x).2 (pos a c j) * (x' (pos a c j) - x (pos a c j)))]
    simp only [sum_cols a, h1, h1', h2, Finset.sum_add_distrib]
    refine le_trans (le_of_eq ?_) (multi_convex _ (fun i (c : Fin a.k) => d.Y i c) (hY hm).2 _ d.sw hsw
      (fun (c : Fin a.k) (j : Fin a.p) => x (pos a c j)) (fun c j => x' (pos a c j))
      (fun c => interceptOf a x c) (fun c => interceptOf a x' c))
    congr 2
    refine Finset.sum_congr rfl fun c _ => ?_
    cases hf : a.fi with
    | false => simp [interceptOf, hf]
    | true => simp only [if_true, h3 hf]; simp [interceptOf, hf]

/-! ### Sizes of gradients -/

theorem pos_surj {a : PathArgs} {i : Nat} (hi : i < a.size) : ∃ c j, c < a.rows ∧ j < a.cols ∧ i = pos a c j := by
  unfold PathArgs.size at hi
  unfold pos
  rw [rows_eq] at hi ⊢
  cases hm : a.multi with
  | false => exact ⟨0, i, by simp, by simpa [hm] using hi, by simp⟩
  | true =>
    rw [hm] at hi
    simp only [if_true] at hi ⊢
    have hk : 0 < a.k := by rcases Nat.eq_zero_or_pos a.k with h | h; · simp [h] at hi
                            · exact h
    exact ⟨i % a.k, i / a.k, Nat.mod_lt _ hk, Nat.div_lt_of_lt_mul hi, (Nat.div_add_mod' i a.k).symm⟩

theorem abs_mean_le {u : Fin n → ℝ} {B : ℝ} (hB : 0 ≤ B) (h : ∀ i, |u i| ≤ B) : |(∑ i, u i) / n| ≤ B := by
  rcases Nat.eq_zero_or_pos n with h0 | h0
  · subst h0; simpa using hB
  have hn : (0 : ℝ) < n := by exact_mod_cast h0
  rw [abs_div, abs_of_pos hn, div_le_iff₀ hn]
  calc |∑ i, u i| ≤ ∑ i, |u i| := Finset.abs_sum_le_sum_abs _ _
    _ ≤ ∑ _i : Fin n, B := Finset.sum_le_sum fun i _ => h i
    _ = B * n := by simp [mul_comm]

theorem expit_mem (x : ℝ) : |expit x - 1| ≤ 1 := by
  have h1 : 0 < expit x := by unfold expit; positivity
  have h2 : expit x ≤ 1 := by
    unfold expit
    rw [div_le_one (by positivity)]
    linarith [Real.exp_pos (-x)]
  rw [abs_le]; constructor <;> linarith

theorem exp_logProb_mem {k : Nat} [NeZero k] (u : Fin k → ℝ) (c : Fin k) :
    0 ≤ Real.exp (logProb u c) ∧ Real.exp (logProb u c) ≤ 1 := by
  have hS : 0 < ∑ c, Real.exp (u c) := Verif.Utils.sum_exp_pos _
  refine ⟨(Real.exp_pos _).le, ?_⟩
  unfold logProb
  rw [Real.exp_sub, Real.exp_log hS, div_le_one hS]
  exact Finset.single_le_sum (f := fun c => Real.exp (u c)) (fun c _ => (Real.exp_pos _).le) (Finset.mem_univ c)

/-- Bounds on the data of a fit. -/
structure Bounded (a : PathArgs) (d : L1Data n) (M W : ℝ) : Prop where
  one : 1 ≤ M
  nonneg : 0 ≤ W
  hX : ∀ i j, j < a.p → |d.X i j| ≤ M
  hsw : ∀ i, 0 ≤ d.sw i ∧ d.sw i ≤ W
  hy : a.multi = false → ∀ i, |d.y i| ≤ 1
  hY : a.multi = true → a.k ≠ 0 ∧ ∀ i, ∀ c < a.k, 0 ≤ d.Y i c ∧ d.Y i c ≤ 1
  hmask : ∀ m, a.mask = some m → ∀ c j, |m c j| ≤ 1

theorem l1Func_bounded {a : PathArgs} {d : L1Data n} {M W : ℝ} (h : Bounded a d M W) (x : Nat → ℝ) {i : Nat}
    (hi : i < a.size) : |(l1Func a d x).2 i| ≤ M * W := by
  obtain ⟨c, j, hc, hj, rfl⟩ := pos_surj hi
  have hM : 0 ≤ M := le_trans zero_le_one h.one
  have hMW : 0 ≤ M * W := mul_nonneg hM h.nonneg
  have hWM : W ≤ M * W := le_mul_of_one_le_left h.nonneg h.one
  cases hm : a.multi with
  | false =>
    obtain ⟨-, h2, h3⟩ := l1Func_bin d hm x
    have hp : pos a c j = j := by simp [pos, hm]
    rw [hp]
    have hz : ∀ (i : Fin n) (z : ℝ), |d.sw i * (expit z - 1) * d.y i| ≤ W := by
      intro i z
      rw [abs_mul, abs_mul, abs_of_nonneg (h.hsw i).1]
      calc d.sw i * |expit z - 1| * |d.y i| ≤ W * 1 * 1 :=
            mul_le_mul (mul_le_mul (h.hsw i).2 (expit_mem z) (abs_nonneg _) h.nonneg) (h.hy hm i) (abs_nonneg _)
              (by linarith [h.nonneg])
        _ = W := by ring
    by_cases hjp : j < a.p
    · have := h2 ⟨j, hjp⟩
      simp only at this
      rw [this]
      simp only [binLossGrad, zero_mul, add_zero]
      rw [applyMask_eq, abs_mul]
      have hmk : |((a.mask.map fun m (j : Fin a.p) => m 0 j).getD fun _ => 1) ⟨j, hjp⟩| ≤ 1 := by
        cases hmask : a.mask with
        | none => simp
        | some m => simpa using h.hmask m hmask 0 j
      refine le_trans (mul_le_of_le_one_right (abs_nonneg _) hmk) ?_
      refine abs_mean_le hMW fun i => ?_
      rw [abs_mul]
      exact mul_le_mul (h.hX i j hjp) (hz i _) (abs_nonneg _) hM
    · have hfi : a.fi = true := by
        by_contra hf
        unfold PathArgs.cols at hj
        simp [hf] at hj
        exact hjp hj
      have hjp' : j = a.p := by
        unfold PathArgs.cols at hj
        simp [hfi] at hj
        omega
      rw [hjp', h3 hfi]
      simp only [binLossGrad, Option.map_some, Option.getD_some]
      exact (abs_mean_le h.nonneg fun i => hz i _).trans hWM
  | true =>
    obtain ⟨-, h2, h3⟩ := l1Func_multi d hm x
    have : NeZero a.k := ⟨(h.hY hm).1⟩
    have hck : c < a.k := by rw [rows_eq, if_pos hm] at hc; exact hc
    have hz : ∀ (i : Fin n) (u : Fin a.k → ℝ) (c : Fin a.k),
        |d.sw i * (Real.exp (logProb u c) - d.Y i c)| ≤ W := by
      intro i u c
      have e1 := exp_logProb_mem u c
      have e2 := (h.hY hm).2 i c c.isLt
      rw [abs_mul, abs_of_nonneg (h.hsw i).1]
      have : |Real.exp (logProb u c) - d.Y i c| ≤ 1 := by rw [abs_le]; constructor <;> linarith [e1.1, e1.2, e2.1, e2.2]
      calc d.sw i * |Real.exp (logProb u c) - d.Y i c| ≤ W * 1 := mul_le_mul (h.hsw i).2 this (abs_nonneg _) h.nonneg
        _ = W := mul_one W
    by_cases hjp : j < a.p
    · have := h2 ⟨c, hck⟩ ⟨j, hjp⟩
      simp only at this
      rw [this]
      simp only [multiLossGrad, zero_mul, add_zero]
      rw [applyMaskM_eq, abs_mul]
      have hmk : |((a.mask.map fun m (c : Fin a.k) (j : Fin a.p) => m c j).getD fun _ _ => 1) ⟨c, hck⟩ ⟨j, hjp⟩| ≤ 1 := by
        cases hmask : a.mask with
        | none => simp
        | some m => simpa using h.hmask m hmask c j
      refine le_trans (mul_le_of_le_one_right (abs_nonneg _) hmk) ?_
      refine abs_mean_le hMW fun i => ?_
      rw [abs_mul, mul_comm]
      exact mul_le_mul (h.hX i j hjp) (hz i _ _) (abs_nonneg _) hM
    · have hfi : a.fi = true := by
        by_contra hf
        unfold PathArgs.cols at hj
        simp [hf] at hj
        exact hjp hj
      have hjp' : j = a.p := by
        unfold PathArgs.cols at hj
        simp [hfi] at hj
        omega
      have := h3 hfi ⟨c, hck⟩
      simp only at this
      rw [hjp', this]
      simp only [multiLossGrad, Option.map_some, Option.getD_some]
      exact (abs_mean_le h.nonneg fun i => hz i _ _).trans hWM

/-- The pseudo-gradient is at most the gradient plus the penalty. -/
theorem abs_pseudoGradient_le {N : Nat} (x g : Fin N → ℝ) {c : ℝ} (hc : 0 ≤ c) (s e : Int) (i : Fin N) :
    |pseudoGradient x g c s e i| ≤ |g i| + c := by
  unfold pseudoGradient
  split_ifs
  · exact (abs_sub _ _).trans (by rw [abs_of_nonneg hc])
  · exact (abs_add_le _ _).trans (by rw [abs_of_nonneg hc])
  · exact (abs_add_le _ _).trans (by rw [abs_of_nonneg hc])
  · exact (abs_sub _ _).trans (by rw [abs_of_nonneg hc])
  · simp; positivity
  · linarith

/-- The arguments of a fit with a positive penalty are accepted. -/
theorem l1_accepted (a : PathArgs) {C tol : ℝ} (hC : 0 < C) (ht : 0 ≤ tol) (maxIter : Nat) (hs : 0 < a.size) :
    fminPar (l1Args a C tol maxIter) = .ok { (l1Args a C tol maxIter).par with linesearch := 2 } ∧
      check a.size { (l1Args a C tol maxIter).par with linesearch := 2 } = none := by
  have hc : 0 < 1 / C := by positivity
  have hle : a.coefSize ≤ a.size := by
    unfold PathArgs.coefSize PathArgs.size PathArgs.cols
    exact Nat.mul_le_mul_left _ (by omega)
  constructor
  · unfold fminPar
    rw [if_neg (by simpa [l1Args] using hC.le)]
    have : chooseSearch (l1Args a C tol maxIter) = ("wolfe", false) := by
      unfold chooseSearch
      rw [if_neg (by simp [l1Args]), if_pos ⟨hc, rfl⟩]
    rw [this]
    have h2 : lineSearchAlgo.lookup "wolfe" = some "LBFGS_LINESEARCH_BACKTRACKING_WOLFE" := by decide +kernel
    simp only [h2]
    congr 2
  · rw [C71_accepted_partial]
    intro e he
    cases he with
    | n h => omega
    | epsilon h => exact absurd h (not_lt.2 ht)
    | past h => exact absurd h (lt_irrefl _)
    | delta h => exact absurd h (lt_irrefl _)
    | minStep h => exact absurd h (by norm_num [l1Args])
    | maxStep h => exact absurd h (by norm_num [l1Args])
    | ftol h => exact absurd h (by norm_num [l1Args])
    | wolfe _ h => exact absurd (show _ ∧ _ by norm_num [l1Args]) h
    | gtol h => exact absurd h (by norm_num [l1Args])
    | xtol h => exact absurd h (by norm_num [l1Args])
    | maxLinesearch h => exact absurd h (by norm_num [l1Args])
    | c h => exact absurd h (not_lt.2 hc.le)
    | start h => exact absurd ⟨le_refl _, by simp [l1Args]⟩ h
    | stop h => exact absurd h (by simpa [l1Args] using hle)
    | searchPenalised _ h => exact h rfl
    | searchPlain h => exact absurd h hc.ne'

/-- What the codes of a fit become. -/
theorem l1Outcome_codes {N : Nat} {o : Out N ℝ} (h : o.ret = ERR_MAXIMUMLINESEARCH ∨ o.ret = SUCCESS ∨
    o.ret = ERR_MAXIMUMITERATION ∨ o.ret = ALREADY_MINIMIZED ∨ o.ret = -2048) : ∃ v, l1Outcome (finish o) = .ok v := by
  rcases h with h | h | h | h | h <;> simp only [finish, h]
  · exact ⟨_, rfl⟩
  · exact ⟨_, rfl⟩
  · exact ⟨_, rfl⟩
  · exact ⟨_, rfl⟩
  · exact ⟨_, rfl⟩

/-- A fit to bounded data does not raise. -/
theorem l1Fit_ok {a : PathArgs} {d : L1Data n} {M W : ℝ} (hb : Bounded a d M W) {C tol : ℝ} (hC : 0 < C)
    (ht : 1 / 10 ^ 20 ≤ tol) (hs : 0 < a.size) (hM : a.size * (M * W + 1 / C) ^ 2 ≤ 10 ^ 28) {maxIter : Nat}
    {r : Except PyErr L1Result} {w : Option String} (h : L1Fit a d C tol maxIter r w) : ∃ v, r = .ok v := by
  obtain ⟨res, tr, hf, rfl, -⟩ := h
  have ht0 : 0 ≤ tol := le_trans (by positivity) ht
  obtain ⟨hp, hck⟩ := l1_accepted a hC ht0 maxIter hs
  have hc : 0 < 1 / C := by positivity
  have hfill : fillEnd a.size { (l1Args a C tol maxIter).par with linesearch := 2 } =
      { (l1Args a C tol maxIter).par with linesearch := 2 } := by
    unfold fillEnd
    rw [if_neg (by simp [l1Args])]
  cases hf with
  | bad he => rw [hp] at he; cases he
  | @run p o hpo hl =>
    rw [hp] at hpo
    cases hpo
    apply l1Outcome_codes
    cases hl with
    | rejected hc => rw [hck] at hc; cases hc
    | already => exact .inr (.inr (.inr (.inl rfl)))
    | run _ hna hrun =>
      rw [hfill] at hna hrun
      set p := { (l1Args a C tol maxIter).par with linesearch := 2 } with hpdef
      set x0 : Fin a.size → ℝ := fun i => l1Start a i
      set pg := pseudoGradient x0 ((l1Callables a d).env.eval x0).2 p.c p.start p.stop with hpg
      have hcne : ¬ feq p.c 0 := by rw [feq_iff]; exact hc.ne'
      have hnorm : vec2norm Real.sqrt (start (l1Callables a d).env p x0 0).d = Real.sqrt (∑ i, pg i ^ 2) := by
        unfold vec2norm
        rw [vecdot_eq]
        congr 1
        refine Finset.sum_congr rfl fun i _ => ?_
        simp only [start, effGrad, if_neg hcne]
        rw [hpg]
        ring
      have hup : Real.sqrt (∑ i, pg i ^ 2) ≤ 10 ^ 14 := by
        rw [Real.sqrt_le_left (by positivity)]
        calc ∑ i, pg i ^ 2 ≤ ∑ _i : Fin a.size, (M * W + 1 / C) ^ 2 := by
              refine Finset.sum_le_sum fun i _ => ?_
              refine sq_le_sq' ?_ ?_
              · have := abs_pseudoGradient_le x0 ((l1Callables a d).env.eval x0).2 hc.le p.start p.stop i
                have h2 := l1Func_bounded hb (ofVec x0) i.isLt
                have h3 : |((l1Callables a d).env.eval x0).2 i| ≤ M * W := h2
                have h4 := neg_abs_le (pg i)
                change |pg i| ≤ _ at this
                linarith
              · have := abs_pseudoGradient_le x0 ((l1Callables a d).env.eval x0).2 hc.le p.start p.stop i
                have h2 := l1Func_bounded hb (ofVec x0) i.isLt
                have h3 : |((l1Callables a d).env.eval x0).2 i| ≤ M * W := h2
                have h4 := le_abs_self (pg i)
                change |pg i| ≤ _ at this
                linarith
          _ = a.size * (M * W + 1 / C) ^ 2 := by simp
          _ ≤ (10 ^ 14) ^ 2 := hM.trans (by norm_num)
      have hlow : 1 / 10 ^ 20 < Real.sqrt (∑ i, pg i ^ 2) := by
        by_contra hle
        apply hna
        unfold already converged
        have he : vec2norm Real.sqrt (effGrad p (start (l1Callables a d).env p x0 0).g
            (start (l1Callables a d).env p x0 0).pg) = Real.sqrt (∑ i, pg i ^ 2) := by
          unfold vec2norm
          rw [vecdot_eq]
          congr 1
          refine Finset.sum_congr rfl fun i _ => ?_
          simp only [start, effGrad, if_neg hcne]
          rw [hpg]
          ring
        change vec2norm Real.sqrt _ / _ ≤ tol
        rw [he]
        refine le_trans ?_ ((not_lt.1 hle).trans ht)
        apply div_le_self (Real.sqrt_nonneg _)
        split_ifs with hx
        · exact le_refl _
        · exact not_lt.1 hx
      have hpos : 0 < Real.sqrt (∑ i, pg i ^ 2) := lt_trans (by positivity) hlow
      have h20 : Int.toNat 20 - 1 = 19 := rfl
      have hstep : (start (l1Callables a d).env p x0 0).step = 1 / Real.sqrt (∑ i, pg i ^ 2) := by
        rw [← hnorm]; rfl
      have := run_codes_owlqn hc.ne' (by norm_num [hpdef, l1Args, h20]) (by norm_num [hpdef, l1Args, h20]) rfl
        (by norm_num [hpdef, l1Args, h20]) (by norm_num [hpdef, l1Args, h20]) hrun (by rw [hstep]; positivity) (by
          rw [hstep]
          constructor
          · rw [le_div_iff₀ hpos]
            calc p.minStep * 2 ^ (p.maxLinesearch.toNat - 1) * Real.sqrt (∑ i, pg i ^ 2) ≤
                  p.minStep * 2 ^ (p.maxLinesearch.toNat - 1) * 10 ^ 14 :=
                  mul_le_mul_of_nonneg_left hup (by norm_num [hpdef, l1Args, h20])
              _ ≤ 1 := by norm_num [hpdef, l1Args, h20]
          · rw [div_le_iff₀ hpos]
            have : (1 : ℝ) ≤ 10 ^ 20 * (1 / 10 ^ 20) := by norm_num
            exact this.trans (mul_le_mul_of_nonneg_left hlow.le (by positivity)))
      rcases this with h | h | h | ⟨cb, x, g, e1, e2, e3, e4, e5, e6, hne, h⟩
      · exact .inl h
      · exact .inr (.inl h)
      · exact .inr (.inr (.inl h))
      · right; right; right; right
        simp only [Callables.env, l1Callables] at h
        by_cases hz : (zeroCoef a.multi a.k cb (List.ofFn x)).2 = true
        · rw [hz] at h; exact h
        · rw [if_neg hz] at h; exact absurd h hne


/-! ### The penalised objective -/

/-- The loss depends on the entries of the vector only. -/
theorem l1Func_congr {a : PathArgs} (d : L1Data n) {x y : Nat → ℝ} (h : ∀ i < a.size, x i = y i) :
    (l1Func a d x).1 = (l1Func a d y).1 := by
  have hi : ∀ c < a.rows, interceptOf a x c = interceptOf a y c := by
    intro c hc
    unfold interceptOf
    split_ifs with hf
    · exact h _ (pos_lt hc (by unfold PathArgs.cols; simp [hf]))
    · rfl
  cases hm : a.multi with
  | false =>
    have hr : 0 < a.rows := by simp [rows_eq, hm]
    rw [(l1Func_bin d hm x).1, (l1Func_bin d hm y).1]
    have : (fun j : Fin a.p => x j) = fun j : Fin a.p => y j := by
      funext j
      have := h (pos a 0 j) (pos_lt hr (lt_cols j.isLt))
      simpa [pos, hm] using this
    rw [this, hi 0 hr]
  | true =>
    have hr : a.rows = a.k := by simp [rows_eq, hm]
    rw [(l1Func_multi d hm x).1, (l1Func_multi d hm y).1]
    have h1 : (fun (c : Fin a.k) (j : Fin a.p) => x (pos a c j)) = fun (c : Fin a.k) (j : Fin a.p) => y (pos a c j) := by
      funext c j
      exact h _ (pos_lt (by rw [hr]; exact c.isLt) (lt_cols j.isLt))
    have h2 : (fun c : Fin a.k => interceptOf a x c) = fun c : Fin a.k => interceptOf a y c := by
      funext c
      exact hi c (by rw [hr]; exact c.isLt)
    rw [h1, h2]

theorem ofVec_restrict {N : Nat} (y : Nat → ℝ) {i : Nat} (hi : i < N) : ofVec (fun i : Fin N => y i) i = y i := by
  rw [ofVec, dif_pos hi]

/-- Loss and penalty of a vector. -/
noncomputable def pen (a : PathArgs) (d : L1Data n) (C : ℝ) (x : Nat → ℝ) : ℝ :=
  (l1Func a d x).1 + 1 / C * ∑ c ∈ Finset.range a.rows, ∑ j ∈ Finset.range a.p, |x (pos a c j)|

theorem l1_sum (a : PathArgs) (x : Nat → ℝ) : l1 0 (a.coefSize : Int) (fun i : Fin a.size => x i) =
    ∑ c ∈ Finset.range a.rows, ∑ j ∈ Finset.range a.p, |x (pos a c j)| := by
  unfold l1
  rw [Finset.sum_filter]
  have := sum_pos a fun i => if i < a.coefSize then |x i| else 0
  have e : ∀ i : Fin a.size, (if Penalised 0 (a.coefSize : Int) i then |x i| else 0) =
      if i.val < a.coefSize then |x i| else 0 := by
    intro i
    have : Penalised 0 (a.coefSize : Int) i ↔ i.val < a.coefSize := by unfold Penalised; simp
    by_cases h : i.val < a.coefSize
    · rw [if_pos h, if_pos (this.2 h)]
    · rw [if_neg h, if_neg (mt this.1 h)]
  simp only [e]
  rw [this]
  refine Finset.sum_congr rfl fun c hc => ?_
  have hcr := Finset.mem_range.1 hc
  simp only [pos_lt_coef hcr]
  rw [← Finset.sum_filter]
  refine Finset.sum_congr ?_ fun _ _ => rfl
  ext j
  simp only [Finset.mem_filter, Finset.mem_range]
  exact ⟨fun h => h.2, fun h => ⟨lt_cols h, h⟩⟩

theorem pen_eq (a : PathArgs) (d : L1Data n) (C : ℝ) (y : Nat → ℝ) :
    penalised (fun x : Fin a.size → ℝ => (l1Func a d (ofVec x)).1) (1 / C) 0 (a.coefSize : Int)
      (fun i => y i) = pen a d C y := by
  unfold penalised pen
  rw [l1_sum]
  congr 1
  exact l1Func_congr d fun i hi => ofVec_restrict y hi

theorem outcome_point {N : Nat} {res : Res N ℝ} {x : Nat → ℝ} (h : l1Outcome res = .ok (.point x)) :
    ∃ v w, res = .returned v w ∧ x = ofVec v := by
  rcases res with ⟨v, w⟩ | ⟨e, msg⟩
  · exact ⟨v, w, rfl, (L1Result.point.inj (Except.ok.inj h)).symm⟩
  · revert h
    unfold l1Outcome
    split <;> rintro ⟨⟩
    rename_i heq
    cases heq

/-- A fit that ended without warning is almost optimal. -/
theorem l1_gap {a : PathArgs} {d : L1Data n} (hsw : ∀ i, 0 ≤ d.sw i)
    (hY : a.multi = true → a.k ≠ 0 ∧ ∀ i, ∑ c : Fin a.k, d.Y i c = 1) {C tol : ℝ} {maxIter : Nat} {x : Nat → ℝ}
    (h : L1Fit a d C tol maxIter (.ok (.point x)) none) (y : Nat → ℝ) :
    pen a d C x ≤ pen a d C y + tol *
      max 1 (Real.sqrt (∑ c ∈ Finset.range a.rows, ∑ j ∈ Finset.range a.cols, x (pos a c j) ^ 2)) *
      Real.sqrt (∑ c ∈ Finset.range a.rows, ∑ j ∈ Finset.range a.cols, (y (pos a c j) - x (pos a c j)) ^ 2) := by
  obtain ⟨res, tr, hf, ho, hw⟩ := h
  obtain ⟨v, w, rfl, rfl⟩ := outcome_point ho
  cases hw
  obtain ⟨ls, o, hp, hl, rfl, hr⟩ := fmin_converged (fun cb x g f xn gn st k ls => by
    simp only [l1Callables]
    split_ifs <;> simp) hf
  have := C84_gap (l1Callables a d).env rfl _ _ _ o hl hr (a.coefSize : Int) (by simp [l1Args])
    (l1_convex d hsw hY) (fun i => y i)
  have hx : o.x = fun i : Fin a.size => ofVec o.x i := by funext i; rw [ofVec, dif_pos i.isLt]
  have e1 := sum_pos a fun i => ofVec o.x i ^ 2
  have e2 := sum_pos a fun i => (y i - ofVec o.x i) ^ 2
  rw [← e1, ← e2, ← pen_eq, ← pen_eq]
  rw [← hx]
  have e3 : ∀ i : Fin a.size, ofVec o.x i = o.x i := fun i => (congrFun hx i).symm
  simp only [e3]
  exact this

/-- Every returned vector is no worse than the start. -/
theorem l1_no_worse {a : PathArgs} {d : L1Data n} (hsw : ∀ i, 0 ≤ d.sw i)
    (hY : a.multi = true → a.k ≠ 0 ∧ ∀ i, ∑ c : Fin a.k, d.Y i c = 1) {C tol : ℝ} {maxIter : Nat} {x : Nat → ℝ}
    {w : Option String} (h : L1Fit a d C tol maxIter (.ok (.point x)) w) :
    pen a d C x ≤ pen a d C (l1Start a) := by
  obtain ⟨res, tr, hf, ho, -⟩ := h
  obtain ⟨v, w, rfl, rfl⟩ := outcome_point ho
  have := C66_fmin_partial (l1Callables a d) (fun x => (l1Func a d (ofVec x)).1) (fun x i => (l1Func a d (ofVec x)).2 i)
    (fun _ => rfl) _ _ _ _ _ _ hf (a.coefSize : Int) (by simp [l1Args])
    (.inr (.inr ⟨l1_convex d hsw hY, by norm_num [l1Args]⟩))
  have hx : v = fun i : Fin a.size => ofVec v i := by funext i; rw [ofVec, dif_pos i.isLt]
  rw [← pen_eq, ← pen_eq, ← hx]
  exact this

theorem pen_bin {a : PathArgs} (d : L1Data n) (hm : a.multi = false)
    (h01 : ∀ m, a.mask = some m → ∀ c < a.rows, ∀ j < a.p, m c j = 0 ∨ m c j = 1) (C : ℝ) (x : Nat → ℝ)
    (hs : ∀ m, a.mask = some m → ∀ j < a.p, m 0 j = 0 → x j = 0) :
    pen a d C x = binObj (fun i (j : Fin a.p) => d.X i j) d.y d.sw 0 (if a.fi then x a.p else 0) (fun j => x j) +
      1 / C * ∑ j : Fin a.p, |x j| := by
  have hr : a.rows = 1 := by simp [rows_eq, hm]
  have hp : ∀ j, pos a 0 j = j := by intro j; simp [pos, hm]
  unfold pen
  rw [hr, Finset.sum_range_one, (l1Func_bin d hm x).1, bin_value]
  simp only [hp, interceptOf, Option.getD_some]
  rw [Fin.sum_univ_eq_sum_range (fun j => |x j|)]
  congr 2
  cases hmk : a.mask with
  | none => rfl
  | some m =>
    funext j
    simp only [Option.map_some, applyMask]
    rcases h01 m hmk 0 (by simp [hr]) j j.isLt with h | h
    · rw [h, hs m hmk j j.isLt h]; simp
    · rw [h, mul_one]

theorem pen_multi {a : PathArgs} (d : L1Data n) (hm : a.multi = true) (hk : a.k ≠ 0)
    (hY : ∀ i, ∑ c : Fin a.k, d.Y i c = 1)
    (h01 : ∀ m, a.mask = some m → ∀ c < a.rows, ∀ j < a.p, m c j = 0 ∨ m c j = 1) (C : ℝ) (x : Nat → ℝ)
    (hs : ∀ m, a.mask = some m → ∀ c < a.k, ∀ j < a.p, m c j = 0 → x (pos a c j) = 0) :
    pen a d C x = multiObj (fun i (j : Fin a.p) => d.X i j) (fun i (c : Fin a.k) => d.Y i c) d.sw 0
      (fun c => if a.fi then x (pos a c a.p) else 0) (fun c j => x (pos a c j)) +
      1 / C * ∑ c : Fin a.k, ∑ j : Fin a.p, |x (pos a c j)| := by
  have hr : a.rows = a.k := by simp [rows_eq, hm]
  have : NeZero a.k := ⟨hk⟩
  unfold pen
  rw [hr, (l1Func_multi d hm x).1, multi_value _ _ hY]
  simp only [interceptOf, Option.getD_some]
  rw [← Fin.sum_univ_eq_sum_range (fun c => ∑ j ∈ Finset.range a.p, |x (pos a c j)|)]
  have : ∀ c : Fin a.k, ∑ j : Fin a.p, |x (pos a c j)| = ∑ j ∈ Finset.range a.p, |x (pos a c j)| := fun c =>
    Fin.sum_univ_eq_sum_range (fun j => |x (pos a c j)|) _
  simp only [this]
  congr 2
  cases hmk : a.mask with
  | none => rfl
  | some m =>
    funext c j
    simp only [Option.map_some, applyMaskM]
    rcases h01 m hmk c (by rw [hr]; exact c.isLt) j j.isLt with h | h
    · rw [h, hs m hmk c c.isLt j j.isLt h]; simp
    · rw [h, mul_one]

/-- Coefficients and intercepts as a vector. -/
def pack (a : PathArgs) (W : Nat → Nat → ℝ) (B : Nat → ℝ) : Nat → ℝ := fun i =>
  let c := if a.multi then i % a.k else 0
  let j := if a.multi then i / a.k else i
  if j < a.p then W c j else B c

theorem pack_pos {a : PathArgs} (W : Nat → Nat → ℝ) (B : Nat → ℝ) {c : Nat} (hc : c < a.rows) (j : Nat) :
    pack a W B (pos a c j) = if j < a.p then W c j else B c := by
  unfold pack pos
  rw [rows_eq] at hc
  cases hm : a.multi with
  | false =>
    rw [hm] at hc
    have : c = 0 := by simpa using hc
    subst this
    simp
  | true =>
    rw [hm] at hc
    simp only [if_true] at hc ⊢
    have hk : 0 < a.k := by omega
    have h1 : (j * a.k + c) % a.k = c := by rw [Nat.mul_add_mod', Nat.mod_eq_of_lt hc]
    have h2 : (j * a.k + c) / a.k = j := by
      rw [mul_comm, Nat.mul_add_div hk, Nat.div_eq_of_lt hc, add_zero]
    rw [h1, h2]


/-- A fit that starts at a stationary point returns it. -/
theorem l1Fit_already {a : PathArgs} {d : L1Data n} {C tol : ℝ} (hC : 0 < C) (ht : 0 ≤ tol) (hs : 0 < a.size)
    (maxIter : Nat)
    (h : ∀ i : Fin a.size, pseudoGradient (fun i : Fin a.size => l1Start a i)
      (fun i => (l1Func a d (ofVec fun i : Fin a.size => l1Start a i)).2 i) (1 / C) 0 (a.coefSize : Int) i = 0) :
    L1Fit a d C tol maxIter (.ok (.point (ofVec fun i : Fin a.size => l1Start a i))) none := by
  obtain ⟨hp, hck⟩ := l1_accepted a hC ht maxIter hs
  have hc : 0 < 1 / C := by positivity
  refine ⟨_, _, .run hp (.already hck ?_), rfl, rfl⟩
  have hfill : fillEnd a.size { (l1Args a C tol maxIter).par with linesearch := 2 } =
      { (l1Args a C tol maxIter).par with linesearch := 2 } := by
    unfold fillEnd
    rw [if_neg (by simp [l1Args])]
  rw [hfill]
  unfold already converged
  have hcne : ¬ feq (1 / C) 0 := by rw [feq_iff]; exact hc.ne'
  have : effGrad { (l1Args a C tol maxIter).par with linesearch := 2 }
      (start (l1Callables a d).env { (l1Args a C tol maxIter).par with linesearch := 2 }
        (fun i => l1Start a i) 0).g
      (start (l1Callables a d).env { (l1Args a C tol maxIter).par with linesearch := 2 }
        (fun i => l1Start a i) 0).pg = fun _ => 0 := by
    funext i
    have hcn : ¬ feq (l1Args a C tol maxIter).par.c 0 := hcne
    simp only [effGrad, start, if_neg hcn]
    exact h i
  rw [this]
  have hz : vec2norm (l1Callables a d).env.sqrt (fun _ : Fin a.size => (0 : ℝ)) = 0 := by
    unfold vec2norm
    rw [vecdot_eq]
    simp [Callables.env, l1Callables, dot]
  rw [hz, zero_div]
  exact ht

end Verif.Logistic
