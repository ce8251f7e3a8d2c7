import Verif.Lemmas.LogisticL1
import Verif.Props.Logistic
/-!
C47, C87, C88: the L1-penalised logistic fits, with the library's own optimiser.
-/
namespace Verif.Logistic
open Verif.Py Verif.Lbfgs Verif.Lbfgs.Spec Verif.Spec.Logistic

variable {n : Nat}

/-- A binary problem with two samples, one feature and an intercept. -/
def exArgs : PathArgs := ⟨false, true, true, 2, 1, some fun _ _ => 1, none, fun _ => 0⟩

/-- Its data: the feature is 2 and 1, the labels are plus and minus. -/
noncomputable def exData : L1Data 2 :=
  ⟨fun i _ => if i = 0 then 2 else 1, fun i => if i = 0 then 1 else -1, fun _ _ => 0, fun _ => 1⟩

/-- Its fit. -/
theorem exFit : L1Fit exArgs exData 2 (1 / 10 ^ 4) 100
    (.ok (.point (ofVec fun i : Fin exArgs.size => l1Start exArgs i))) none := by
  have hst : ∀ i, l1Start exArgs i = 0 := by
    intro i
    simp [l1Start, exArgs, ravel, startPoint]
  have h0 : (ofVec fun i : Fin exArgs.size => l1Start exArgs i) = fun _ => 0 := by
    funext i
    simp [ofVec, hst]
  have hg : (l1Func exArgs exData fun _ => 0).2 0 = -(1 / 4) ∧ (l1Func exArgs exData fun _ => 0).2 1 = 0 := by
    constructor
    · simp [l1Func, exArgs, binFlat, binLossGrad, applyMask, exData, Fin.sum_univ_two, expit]
      norm_num
    · simp [l1Func, exArgs, binFlat, binLossGrad, applyMask, exData, Fin.sum_univ_two, expit]
  refine l1Fit_already two_pos (by positivity) (by decide) 100 fun i => ?_
  rw [h0]
  have hi : i.val = 0 ∨ i.val = 1 := by have : i.val < 2 := i.isLt; omega
  have hcs : exArgs.coefSize = 1 := rfl
  unfold pseudoGradient
  rw [hcs]
  rcases hi with h | h
  · simp only [h, hst, hg.1]
    norm_num
  · simp only [h, hst, hg.2]
    norm_num

/-- A problem with three samples, three classes, one feature and intercepts. -/
def exArgs3 : PathArgs := ⟨true, true, true, 3, 1, none, none, fun _ => 0⟩

/-- Its data: the feature is 1, 2, 3, and every sample has its own class. -/
noncomputable def exData3 : L1Data 3 :=
  ⟨fun i _ => i.val + 1, fun _ => 0, fun i c => if i.val = c then 1 else 0, fun _ => 1⟩

/-- Its fit. -/
theorem exFit3 : L1Fit exArgs3 exData3 2 (1 / 10 ^ 4) 100
    (.ok (.point (ofVec fun i : Fin exArgs3.size => l1Start exArgs3 i))) none := by
  have hst : ∀ i, l1Start exArgs3 i = 0 := by
    intro i
    simp [l1Start, exArgs3, ravel, startPoint, transpose]
  have h0 : (ofVec fun i : Fin exArgs3.size => l1Start exArgs3 i) = fun _ => 0 := by
    funext i
    simp [ofVec, hst]
  have h3 : Real.exp (-Real.log 3) = 1 / 3 := by rw [Real.exp_neg, Real.exp_log (by norm_num)]; norm_num
  obtain ⟨-, h1, h2⟩ := l1Func_multi exData3 (show exArgs3.multi = true from rfl) (fun _ => 0)
  have hp : ∀ c j, pos exArgs3 c j = j * 3 + c := fun c j => by simp [pos, exArgs3]
  have hb : (fun c : Fin 3 => interceptOf exArgs3 (fun _ => 0) c) = fun _ => 0 := by funext c; simp [interceptOf]
  have g1 : ∀ c : Fin 3, (l1Func exArgs3 exData3 fun _ => 0).2 c = (1 - (c.val : ℝ)) / 3 := by
    intro c
    have := h1 c (⟨0, by decide⟩ : Fin 1)
    rw [hp] at this
    have e : (multiLossGrad (fun i (j : Fin 1) => exData3.X i j) (fun i (c : Fin 3) => exData3.Y i c) 0 none exData3.sw
        (fun _ _ => 0) (some fun _ => 0)).2.1 c 0 = (1 - (c.val : ℝ)) / 3 := by
      fin_cases c <;>
      simp [multiLossGrad, applyMaskM, exData3, Fin.sum_univ_three, logProb, h3] <;> norm_num
    rw [← e, ← hb]
    have hz : 0 * 3 + c.val = c.val := by omega
    rw [← hz]
    exact this
  have g2 : ∀ c : Fin 3, (l1Func exArgs3 exData3 fun _ => 0).2 (3 + c.val) = 0 := by
    intro c
    have := h2 rfl c
    rw [hp] at this
    have e : ((multiLossGrad (fun i (j : Fin 1) => exData3.X i j) (fun i (c : Fin 3) => exData3.Y i c) 0 none exData3.sw
        (fun _ _ => 0) (some fun _ => 0)).2.2.getD fun _ => 0) c = 0 := by
      fin_cases c <;>
      simp [multiLossGrad, applyMaskM, exData3, -Finset.sum_sub_distrib, -Finset.sum_boole, Fin.sum_univ_three, logProb, h3] <;> norm_num
    refine Eq.trans ?_ e
    refine Eq.trans this ?_
    rw [show (some fun c : Fin exArgs3.k => interceptOf exArgs3 (fun _ => 0) c) = some fun _ => 0 from congrArg some hb]
    rfl
  refine l1Fit_already two_pos (by positivity) (by decide) 100 fun i => ?_
  rw [h0]
  have hcs : exArgs3.coefSize = 3 := rfl
  have h6 : i.val < 6 := i.isLt
  unfold pseudoGradient
  rw [hcs]
  by_cases hlt : i.val < 3
  · have := g1 ⟨i, hlt⟩
    simp only at this
    simp only [hst, this]
    have hc : i.val = 0 ∨ i.val = 1 ∨ i.val = 2 := by omega
    rcases hc with h | h | h <;> simp only [h] <;> norm_num
  · have := g2 ⟨i.val - 3, by omega⟩
    simp only at this
    rw [show 3 + (i.val - 3) = i.val by omega] at this
    rw [if_neg (by omega)]
    exact this

/-- The optimiser of these fits. -/
def exOpt (a : PathArgs) : Optimisers :=
  ⟨fun x => x, fun _ x => x, fun _ => .point (ofVec fun i : Fin a.size => l1Start a i)⟩

/-! ### C47 -/

/-- **C47 (L1 penalty)**: with the library's own optimiser the coefficients outside the mask are exactly
    zero after every fit that does not raise, with or without warning: binary or multinomial, with or
    without intercept, warm or cold start. -/
theorem C47_l1 (a : PathArgs) (d : L1Data n) (opt : Optimisers) (hl : a.l1 = true) (C tol : ℝ) (maxIter : Nat)
    (w : Option String) (h : L1Fit a d C tol maxIter (.ok (opt.l1 (l1Start a))) w) (m : Nat → Nat → ℝ)
    (hm : a.mask = some m) (c j : Nat) (hc : c < a.rows) (hj : j < a.p) (hz : m c j = 0) :
    fitCoef a opt c j = 0 := by
  by_cases hs : maskSum a m = 0
  · exact C47_l1_partial a opt hl m hm c j hc hj hz (.inr hs)
  · rcases hr : opt.l1 (l1Start a) with x | _
    · rw [hr] at h
      unfold fitCoef
      rw [if_pos hj, path_point hl (fun m' hm' => by rw [hm] at hm'; cases hm'; exact hs) hr hc (lt_cols hj)]
      exact l1Fit_masked h hm hc hj hz
    · unfold fitCoef path
      rw [if_pos hj]
      unfold l1Start at hr
      cases hmu : a.multi with
      | false =>
        rw [hmu] at hr
        simp only [Bool.false_eq_true, if_false] at hr
        simp [hl, hm, hs, hr, reshape]
      | true =>
        rw [hmu] at hr
        simp only [if_true] at hr
        simp [hl, hm, hs, hr, reshape, transpose]

-- An example of `C47_l1` is at the end of the file.

/-! ### C87 -/

/-- **C87 (binary)**: a fit that ends without a warning (and not with the all-zero stop) is almost
    optimal: no coefficients within the mask, with any intercept, have an objective below that of the
    result by more than `tol * max(1, |result|)` times their distance. -/
theorem C87_binary (a : PathArgs) (d : L1Data n) (opt : Optimisers) (hm : a.multi = false) (hl : a.l1 = true)
    (hsw : ∀ i, 0 ≤ d.sw i)
    (hmask : ∀ m, a.mask = some m → maskSum a m ≠ 0 ∧ ∀ j < a.p, m 0 j = 0 ∨ m 0 j = 1)
    (C tol : ℝ) (maxIter : Nat) (h : L1Fit a d C tol maxIter (.ok (opt.l1 (l1Start a))) none)
    (hr : opt.l1 (l1Start a) ≠ .allZero) (w : Fin a.p → ℝ) (b : ℝ)
    (hw : ∀ m, a.mask = some m → ∀ j : Fin a.p, m 0 j = 0 → w j = 0) (hb : a.fi = false → b = 0) :
    let J := binPen (fun i (j : Fin a.p) => d.X i j) d.y d.sw C
    let wf : Fin a.p → ℝ := fun j => fitCoef a opt 0 j
    let bf := fitIntercept a opt 0
    J wf bf ≤ J w b + tol * max 1 (Real.sqrt (∑ j, wf j ^ 2 + bf ^ 2)) *
      Real.sqrt (∑ j, (w j - wf j) ^ 2 + (b - bf) ^ 2) := by
  have hrow : a.rows = 1 := by simp [rows_eq, hm]
  have h0 : 0 < a.rows := by omega
  have hp : ∀ j, pos a 0 j = j := by intro j; simp [pos, hm]
  rcases hx : opt.l1 (l1Start a) with x | _
  swap
  · exact absurd hx hr
  rw [hx] at h
  have hpt : ∀ j, j < a.cols → path a opt 0 j = x j := fun j hj => by
    rw [path_point hl (fun m hm => (hmask m hm).1) hx h0 hj, hp]
  have hwf : ∀ j : Fin a.p, fitCoef a opt 0 j = x j := fun j => by
    unfold fitCoef; rw [if_pos j.isLt, hpt j (lt_cols j.isLt)]
  have hbf : fitIntercept a opt 0 = if a.fi then x a.p else 0 := by
    unfold fitIntercept
    split_ifs with hf
    · exact hpt a.p (by unfold PathArgs.cols; simp [hf])
    · rfl
  have h01 : ∀ m, a.mask = some m → ∀ c < a.rows, ∀ j < a.p, m c j = 0 ∨ m c j = 1 := by
    intro m hm' c hc j hj
    have : c = 0 := by omega
    subst this
    exact (hmask m hm').2 j hj
  set W : Nat → Nat → ℝ := fun _ j => if h : j < a.p then w ⟨j, h⟩ else 0 with hW
  have hyw : ∀ j : Fin a.p, pack a W (fun _ => b) j = w j := fun j => by
    have := pack_pos W (fun _ => b) h0 (j : Nat)
    rw [hp, if_pos j.isLt] at this
    rw [this, hW]
    simp [j.isLt]
  have hyb : (if a.fi then pack a W (fun _ => b) a.p else 0) = b := by
    split_ifs with hf
    · have := pack_pos W (fun _ => b) h0 a.p
      rw [hp, if_neg (lt_irrefl _)] at this
      exact this
    · exact (hb (by simpa using hf)).symm
  have := l1_gap hsw (fun h => by rw [hm] at h; cases h) h (pack a W fun _ => b)
  rw [pen_bin d hm h01 C x fun m hm' j hj hz => by
      rw [← hp j]; exact l1Fit_masked h hm' h0 hj hz,
    pen_bin d hm h01 C _ fun m hm' j hj hz => by
      rw [hyw ⟨j, hj⟩]; exact hw m hm' ⟨j, hj⟩ hz, hrow, Finset.sum_range_one, Finset.sum_range_one,
    sum_cols a (fun j => x (pos a 0 j) ^ 2),
    sum_cols a (fun j => (pack a W (fun _ => b) (pos a 0 j) - x (pos a 0 j)) ^ 2), hyb] at this
  simp only [hp, hyw] at this
  intro J wf bf
  simp only [J, wf, bf, binPen, hwf, hbf]
  refine this.trans (le_of_eq ?_)
  cases hf : a.fi with
  | false => rw [hb hf]; simp
  | true =>
    rw [hf] at hyb
    simp only [if_true] at hyb
    simp [hyb]

example (w : Fin 1 → ℝ) (b : ℝ) :
    let J := binPen (fun i (j : Fin 1) => exData.X i j) exData.y exData.sw 2
    let wf : Fin 1 → ℝ := fun j => fitCoef exArgs (exOpt exArgs) 0 j
    let bf := fitIntercept exArgs (exOpt exArgs) 0
    J wf bf ≤ J w b + 1 / 10 ^ 4 * max 1 (Real.sqrt (∑ j, wf j ^ 2 + bf ^ 2)) *
      Real.sqrt (∑ j, (w j - wf j) ^ 2 + (b - bf) ^ 2) :=
  C87_binary exArgs exData (exOpt exArgs) rfl rfl (fun _ => zero_le_one)
    (fun m h => by cases h; exact ⟨by simp [maskSum, exArgs, PathArgs.rows], fun _ _ => .inr rfl⟩) 2 _ 100 exFit
    (by simp [exOpt]) w b (fun m h j hz => by cases h; exact absurd hz one_ne_zero) (fun h => by cases h)

/-- **C87 (multinomial)**: the same with one row of coefficients and one intercept for each class. -/
theorem C87_multinomial (a : PathArgs) (d : L1Data n) (opt : Optimisers) (hm : a.multi = true) (hl : a.l1 = true)
    (hk : a.k ≠ 0) (hsw : ∀ i, 0 ≤ d.sw i) (hY : ∀ i, ∑ c : Fin a.k, d.Y i c = 1)
    (hmask : ∀ m, a.mask = some m → maskSum a m ≠ 0 ∧ ∀ c < a.k, ∀ j < a.p, m c j = 0 ∨ m c j = 1)
    (C tol : ℝ) (maxIter : Nat) (h : L1Fit a d C tol maxIter (.ok (opt.l1 (l1Start a))) none)
    (hr : opt.l1 (l1Start a) ≠ .allZero) (W : Fin a.k → Fin a.p → ℝ) (B : Fin a.k → ℝ)
    (hW : ∀ m, a.mask = some m → ∀ (c : Fin a.k) (j : Fin a.p), m c j = 0 → W c j = 0)
    (hB : a.fi = false → ∀ c, B c = 0) :
    let J := multiPen (fun i (j : Fin a.p) => d.X i j) (fun i (c : Fin a.k) => d.Y i c) d.sw C
    let Wf : Fin a.k → Fin a.p → ℝ := fun c j => fitCoef a opt c j
    let Bf : Fin a.k → ℝ := fun c => fitIntercept a opt c
    J Wf Bf ≤ J W B + tol * max 1 (Real.sqrt (∑ c, (∑ j, Wf c j ^ 2 + Bf c ^ 2))) *
      Real.sqrt (∑ c, (∑ j, (W c j - Wf c j) ^ 2 + (B c - Bf c) ^ 2)) := by
  have hrow : a.rows = a.k := by simp [rows_eq, hm]
  have hcr : ∀ c : Fin a.k, (c : Nat) < a.rows := fun c => by rw [hrow]; exact c.isLt
  rcases hx : opt.l1 (l1Start a) with x | _
  swap
  · exact absurd hx hr
  rw [hx] at h
  have hpt : ∀ c j, c < a.rows → j < a.cols → path a opt c j = x (pos a c j) := fun c j hc hj =>
    path_point hl (fun m hm => (hmask m hm).1) hx hc hj
  have hwf : ∀ (c : Fin a.k) (j : Fin a.p), fitCoef a opt c j = x (pos a c j) := fun c j => by
    unfold fitCoef; rw [if_pos j.isLt, hpt c j (hcr c) (lt_cols j.isLt)]
  have hbf : ∀ c : Fin a.k, fitIntercept a opt c = if a.fi then x (pos a c a.p) else 0 := fun c => by
    unfold fitIntercept
    split_ifs with hf
    · exact hpt c a.p (hcr c) (by unfold PathArgs.cols; simp [hf])
    · rfl
  have h01 : ∀ m, a.mask = some m → ∀ c < a.rows, ∀ j < a.p, m c j = 0 ∨ m c j = 1 := by
    intro m hm' c hc j hj
    exact (hmask m hm').2 c (by rw [← hrow]; exact hc) j hj
  set V : Nat → Nat → ℝ := fun c j => if h : c < a.k ∧ j < a.p then W ⟨c, h.1⟩ ⟨j, h.2⟩ else 0 with hV
  set D : Nat → ℝ := fun c => if h : c < a.k then B ⟨c, h⟩ else 0 with hD
  have hyw : ∀ (c : Fin a.k) (j : Fin a.p), pack a V D (pos a c j) = W c j := fun c j => by
    rw [pack_pos V D (hcr c), if_pos j.isLt, hV]
    simp
  have hyb : ∀ c : Fin a.k, (if a.fi then pack a V D (pos a c a.p) else 0) = B c := by
    intro c
    split_ifs with hf
    · rw [pack_pos V D (hcr c), if_neg (lt_irrefl _), hD]
      simp
    · exact (hB (by simpa using hf) c).symm
  have := l1_gap hsw (fun _ => ⟨hk, hY⟩) h (pack a V D)
  rw [pen_multi d hm hk hY h01 C x fun m hm' c hc j hj hz =>
      l1Fit_masked h hm' (by rw [hrow]; exact hc) hj hz,
    pen_multi d hm hk hY h01 C _ fun m hm' c hc j hj hz => by
      rw [hyw ⟨c, hc⟩ ⟨j, hj⟩]; exact hW m hm' ⟨c, hc⟩ ⟨j, hj⟩ hz, hrow,
    ← Fin.sum_univ_eq_sum_range (fun c => ∑ j ∈ Finset.range a.cols, x (pos a c j) ^ 2),
    ← Fin.sum_univ_eq_sum_range
      (fun c => ∑ j ∈ Finset.range a.cols, (pack a V D (pos a c j) - x (pos a c j)) ^ 2)] at this
  have e1 : ∀ c : Fin a.k, ∑ j ∈ Finset.range a.cols, x (pos a c j) ^ 2 =
      ∑ j : Fin a.p, x (pos a c j) ^ 2 + (if a.fi then x (pos a c a.p) else 0) ^ 2 := by
    intro c
    rw [sum_cols a (fun j => x (pos a c j) ^ 2)]
    cases a.fi <;> simp
  have e2 : ∀ c : Fin a.k, ∑ j ∈ Finset.range a.cols, (pack a V D (pos a c j) - x (pos a c j)) ^ 2 =
      ∑ j : Fin a.p, (W c j - x (pos a c j)) ^ 2 + (B c - if a.fi then x (pos a c a.p) else 0) ^ 2 := by
    intro c
    rw [sum_cols a (fun j => (pack a V D (pos a c j) - x (pos a c j)) ^ 2), ← hyb c]
    simp only [hyw]
    cases a.fi <;> simp
  simp only [e1, e2, hyw, hyb] at this
  intro J Wf Bf
  simp only [J, Wf, Bf, multiPen, hwf, hbf]
  exact this

example (W : Fin 3 → Fin 1 → ℝ) (B : Fin 3 → ℝ) :
    let J := multiPen (fun i (j : Fin 1) => exData3.X i j) (fun i (c : Fin 3) => exData3.Y i c) exData3.sw 2
    let Wf : Fin 3 → Fin 1 → ℝ := fun c j => fitCoef exArgs3 (exOpt exArgs3) c j
    let Bf : Fin 3 → ℝ := fun c => fitIntercept exArgs3 (exOpt exArgs3) c
    J Wf Bf ≤ J W B + 1 / 10 ^ 4 * max 1 (Real.sqrt (∑ c, (∑ j, Wf c j ^ 2 + Bf c ^ 2))) *
      Real.sqrt (∑ c, (∑ j, (W c j - Wf c j) ^ 2 + (B c - Bf c) ^ 2)) :=
  C87_multinomial exArgs3 exData3 (exOpt exArgs3) rfl rfl (by decide) (fun _ => zero_le_one)
    (fun i => by
      change ∑ c : Fin 3, (if i.val = c.val then (1 : ℝ) else 0) = 1
      simp [← Fin.ext_iff]) (fun m h => by cases h) 2 _ 100 exFit3
    (by simp [exOpt]) W B (fun m h => by cases h) (fun h => by cases h)

/-- **C87 (never worse than the start, binary)**: every returned fit, even one with a warning, has an
    objective no larger than that of the coefficients it started from. -/
theorem C87_no_worse_binary (a : PathArgs) (d : L1Data n) (opt : Optimisers) (hm : a.multi = false) (hl : a.l1 = true)
    (hsw : ∀ i, 0 ≤ d.sw i)
    (hmask : ∀ m, a.mask = some m → maskSum a m ≠ 0 ∧ ∀ j < a.p, m 0 j = 0 ∨ m 0 j = 1)
    (C tol : ℝ) (maxIter : Nat) (warning : Option String)
    (h : L1Fit a d C tol maxIter (.ok (opt.l1 (l1Start a))) warning) (hr : opt.l1 (l1Start a) ≠ .allZero) :
    let J := binPen (fun i (j : Fin a.p) => d.X i j) d.y d.sw C
    J (fun j => fitCoef a opt 0 j) (fitIntercept a opt 0) ≤
      J (fun j => startPoint a 0 j) (if a.fi then startPoint a 0 a.p else 0) := by
  have hrow : a.rows = 1 := by simp [rows_eq, hm]
  have h0 : 0 < a.rows := by omega
  have hp : ∀ j, pos a 0 j = j := by intro j; simp [pos, hm]
  rcases hx : opt.l1 (l1Start a) with x | _
  swap
  · exact absurd hx hr
  rw [hx] at h
  have hpt : ∀ j, j < a.cols → path a opt 0 j = x j := fun j hj => by
    rw [path_point hl (fun m hm => (hmask m hm).1) hx h0 hj, hp]
  have hwf : ∀ j : Fin a.p, fitCoef a opt 0 j = x j := fun j => by
    unfold fitCoef; rw [if_pos j.isLt, hpt j (lt_cols j.isLt)]
  have hcol : a.fi = true → a.p < a.cols := fun hf => by unfold PathArgs.cols; simp [hf]
  have hbf : fitIntercept a opt 0 = if a.fi then x a.p else 0 := by
    unfold fitIntercept
    split_ifs with hf
    · exact hpt a.p (hcol hf)
    · rfl
  have h01 : ∀ m, a.mask = some m → ∀ c < a.rows, ∀ j < a.p, m c j = 0 ∨ m c j = 1 := by
    intro m hm' c hc j hj
    have : c = 0 := by omega
    subst this
    exact (hmask m hm').2 j hj
  have hst : ∀ j, j < a.cols → l1Start a j = startPoint a 0 j := fun j hj => by
    have := l1Start_pos h0 hj
    rwa [hp] at this
  have := l1_no_worse hsw (fun h => by rw [hm] at h; cases h) h
  rw [pen_bin d hm h01 C x fun m hm' j hj hz => by
      rw [← hp j]; exact l1Fit_masked h hm' h0 hj hz,
    pen_bin d hm h01 C _ fun m hm' j hj hz => by
      rw [hst j (lt_cols hj)]; exact startPoint_masked hm' hj hz] at this
  have e1 : ∀ j : Fin a.p, l1Start a j = startPoint a 0 j := fun j => hst j (lt_cols j.isLt)
  have e2 : (if a.fi then l1Start a a.p else 0) = if a.fi then startPoint a 0 a.p else 0 := by
    split_ifs with hf
    · exact hst _ (hcol hf)
    · rfl
  simp only [e1, e2] at this
  simp only [binPen, hwf, hbf]
  exact this

example : binPen (fun i (j : Fin 1) => exData.X i j) exData.y exData.sw 2
      (fun j => fitCoef exArgs (exOpt exArgs) 0 j) (fitIntercept exArgs (exOpt exArgs) 0) ≤
    binPen (fun i (j : Fin 1) => exData.X i j) exData.y exData.sw 2 (fun j => startPoint exArgs 0 j)
      (startPoint exArgs 0 1) :=
  C87_no_worse_binary exArgs exData (exOpt exArgs) rfl rfl (fun _ => zero_le_one)
    (fun m h => by cases h; exact ⟨by simp [maskSum, exArgs, PathArgs.rows], fun _ _ => .inr rfl⟩) 2 _ 100 _ exFit
    (by simp [exOpt])

/-- **C87 (never worse than the start, multinomial)**. -/
theorem C87_no_worse_multinomial (a : PathArgs) (d : L1Data n) (opt : Optimisers) (hm : a.multi = true)
    (hl : a.l1 = true) (hk : a.k ≠ 0) (hsw : ∀ i, 0 ≤ d.sw i) (hY : ∀ i, ∑ c : Fin a.k, d.Y i c = 1)
    (hmask : ∀ m, a.mask = some m → maskSum a m ≠ 0 ∧ ∀ c < a.k, ∀ j < a.p, m c j = 0 ∨ m c j = 1)
    (C tol : ℝ) (maxIter : Nat) (warning : Option String)
    (h : L1Fit a d C tol maxIter (.ok (opt.l1 (l1Start a))) warning) (hr : opt.l1 (l1Start a) ≠ .allZero) :
    let J := multiPen (fun i (j : Fin a.p) => d.X i j) (fun i (c : Fin a.k) => d.Y i c) d.sw C
    J (fun c j => fitCoef a opt c j) (fun c => fitIntercept a opt c) ≤
      J (fun c j => startPoint a c j) (fun c => if a.fi then startPoint a c a.p else 0) := by
  have hrow : a.rows = a.k := by simp [rows_eq, hm]
  have hcr : ∀ c : Fin a.k, (c : Nat) < a.rows := fun c => by rw [hrow]; exact c.isLt
  rcases hx : opt.l1 (l1Start a) with x | _
  swap
  · exact absurd hx hr
  rw [hx] at h
  have hpt : ∀ c j, c < a.rows → j < a.cols → path a opt c j = x (pos a c j) := fun c j hc hj =>
    path_point hl (fun m hm => (hmask m hm).1) hx hc hj
  have hwf : ∀ (c : Fin a.k) (j : Fin a.p), fitCoef a opt c j = x (pos a c j) := fun c j => by
    unfold fitCoef; rw [if_pos j.isLt, hpt c j (hcr c) (lt_cols j.isLt)]
  have hcol : a.fi = true → a.p < a.cols := fun hf => by unfold PathArgs.cols; simp [hf]
  have hbf : ∀ c : Fin a.k, fitIntercept a opt c = if a.fi then x (pos a c a.p) else 0 := fun c => by
    unfold fitIntercept
    split_ifs with hf
    · exact hpt c a.p (hcr c) (hcol hf)
    · rfl
  have h01 : ∀ m, a.mask = some m → ∀ c < a.rows, ∀ j < a.p, m c j = 0 ∨ m c j = 1 := by
    intro m hm' c hc j hj
    exact (hmask m hm').2 c (by rw [← hrow]; exact hc) j hj
  have := l1_no_worse hsw (fun _ => ⟨hk, hY⟩) h
  rw [pen_multi d hm hk hY h01 C x fun m hm' c hc j hj hz =>
      l1Fit_masked h hm' (by rw [hrow]; exact hc) hj hz,
    pen_multi d hm hk hY h01 C _ fun m hm' c hc j hj hz => by
      rw [l1Start_pos (by rw [hrow]; exact hc) (lt_cols hj)]; exact startPoint_masked hm' hj hz] at this
  have e1 : ∀ (c : Fin a.k) (j : Fin a.p), l1Start a (pos a c j) = startPoint a c j := fun c j =>
    l1Start_pos (hcr c) (lt_cols j.isLt)
  have e2 : ∀ c : Fin a.k, (if a.fi then l1Start a (pos a c a.p) else 0) =
      if a.fi then startPoint a c a.p else 0 := by
    intro c
    split_ifs with hf
    · exact l1Start_pos (hcr c) (hcol hf)
    · rfl
  simp only [e1, e2] at this
  simp only [multiPen, hwf, hbf]
  exact this

example : multiPen (fun i (j : Fin 1) => exData3.X i j) (fun i (c : Fin 3) => exData3.Y i c) exData3.sw 2
      (fun c j => fitCoef exArgs3 (exOpt exArgs3) c j) (fun c => fitIntercept exArgs3 (exOpt exArgs3) c) ≤
    multiPen (fun i (j : Fin 1) => exData3.X i j) (fun i (c : Fin 3) => exData3.Y i c) exData3.sw 2
      (fun c j => startPoint exArgs3 c j) (fun c => startPoint exArgs3 c 1) :=
  C87_no_worse_multinomial exArgs3 exData3 (exOpt exArgs3) rfl rfl (by decide) (fun _ => zero_le_one)
    (fun i => by
      change ∑ c : Fin 3, (if i.val = c.val then (1 : ℝ) else 0) = 1
      simp [← Fin.ext_iff]) (fun m h => by cases h) 2 _ 100 _ exFit3 (by simp [exOpt])

/-! ### C88 -/

/-- **C88**: an L1-penalised fit to data of ordinary size does not raise: it returns coefficients,
    perhaps with a warning, or the all-zero solution.  Ordinary: entries of at most `M` in absolute
    value, sample weights of at most `W`, and `size * (M W + 1/C)² ≤ 10^28`. -/
theorem C88_no_error (a : PathArgs) (d : L1Data n) (M W : ℝ) (hb : Bounded a d M W) (C tol : ℝ) (hC : 0 < C)
    (ht : 1 / 10 ^ 20 ≤ tol) (hs : 0 < a.size) (hM : a.size * (M * W + 1 / C) ^ 2 ≤ 10 ^ 28) (maxIter : Nat)
    (r : Except PyErr L1Result) (w : Option String) (h : L1Fit a d C tol maxIter r w) : ∃ v, r = .ok v :=
  l1Fit_ok hb hC ht hs hM h

/-- **C88 (existence)**: with an iteration limit the fit has exactly one result. -/
theorem C88_ends (a : PathArgs) (d : L1Data n) (C tol : ℝ) (maxIter : Nat) (hm : maxIter ≠ 0) :
    ∃ r w, L1Fit a d C tol maxIter r w ∧ ∀ r' w', L1Fit a d C tol maxIter r' w' → r' = r ∧ w' = w := by
  have hu : ∃ res tr, Fmin (l1Callables a d) (l1Args a C tol maxIter) (fun i => l1Start a i) 0 res tr ∧
      ∀ res' tr', Fmin (l1Callables a d) (l1Args a C tol maxIter) (fun i => l1Start a i) 0 res' tr' →
        res' = res := by
    rcases hp : fminPar (l1Args a C tol maxIter) with e | p
    · refine ⟨_, _, .bad hp, fun res' tr' h => ?_⟩
      cases h with
      | bad h => rw [hp] at h; cases h; rfl
      | run h => rw [hp] at h; cases h
    · obtain ⟨ls, rfl⟩ := l1_par hp
      obtain ⟨o, ho, hun⟩ := C67_ends (l1Callables a d).env
        { (l1Args a C tol maxIter).par with linesearch := ls } (fun i => l1Start a i) 0
        (by simp only [l1Args]; exact_mod_cast hm)
      refine ⟨_, _, .run hp ho, fun res' tr' h => ?_⟩
      cases h with
      | bad h => rw [hp] at h; cases h
      | run h hl => rw [hp] at h; cases h; rw [hun _ hl]
  obtain ⟨res, tr, h, hun⟩ := hu
  refine ⟨_, _, ⟨res, tr, h, rfl, rfl⟩, ?_⟩
  rintro r' w' ⟨res', tr', h', rfl, rfl⟩
  rw [hun _ _ h']
  exact ⟨rfl, rfl⟩

/-- The data of the first example are of ordinary size. -/
theorem exBounded : Bounded exArgs exData 2 1 where
  one := by norm_num
  nonneg := by norm_num
  hX i j _ := by unfold exData; simp only; split_ifs <;> norm_num
  hsw _ := by simp [exData]
  hy _ i := by unfold exData; simp only; split_ifs <;> norm_num
  hY h := by cases h
  hmask m h c j := by cases h; norm_num

example : ∃ v w, L1Fit exArgs exData 7 (1 / 10 ^ 4) 100 (.ok v) w := by
  obtain ⟨r, w, h, -⟩ := C88_ends exArgs exData 7 (1 / 10 ^ 4) 100 (by norm_num)
  obtain ⟨v, rfl⟩ := C88_no_error exArgs exData 2 1 exBounded 7 _ (by norm_num) (by norm_num) (by decide)
    (by norm_num [PathArgs.size, exArgs, PathArgs.rows, PathArgs.cols]) 100 _ _ h
  exact ⟨v, w, h⟩

/-- The same problem with two features, of which the second is excluded. -/
def exArgsM : PathArgs := { exArgs with p := 2, mask := some fun _ j => if j = 1 then 0 else 1 }

-- C47: a fit of this problem, and its second coefficient.
example : ∃ opt w, L1Fit exArgsM exData 7 (1 / 10 ^ 4) 100 (.ok (opt.l1 (l1Start exArgsM))) w ∧
    fitCoef exArgsM opt 0 1 = 0 := by
  have hb : Bounded exArgsM exData 2 1 :=
    { exBounded with
      hX := fun i j _ => by unfold exData; simp only; split_ifs <;> norm_num
      hmask := fun m h c j => by cases h; simp only; split_ifs <;> norm_num }
  obtain ⟨r, w, h, -⟩ := C88_ends exArgsM exData 7 (1 / 10 ^ 4) 100 (by norm_num)
  obtain ⟨v, rfl⟩ := C88_no_error exArgsM exData 2 1 hb 7 _ (by norm_num) (by norm_num) (by decide)
    (by norm_num [PathArgs.size, exArgsM, exArgs, PathArgs.rows, PathArgs.cols]) 100 _ _ h
  exact ⟨⟨fun x => x, fun _ x => x, fun _ => v⟩, w, h,
    C47_l1 exArgsM exData _ rfl 7 _ 100 w h _ rfl 0 1 (by decide) (by decide) rfl⟩

end Verif.Logistic
