import Verif.Model.Grid
import Verif.Spec.Grid
import Mathlib.Algebra.BigOperators.Field
import Mathlib.Algebra.BigOperators.Fin
import Mathlib.Analysis.Complex.Exponential
import Mathlib.Tactic.LinearCombination
/-! Grids and critical penalties. -/
namespace Verif.Grid
open Verif.Py Verif.Utils Verif.Spec.Grid
variable {n p : Nat}

theorem log_ten_pos : 0 < Real.log 10 := Real.log_pos (by norm_num)

theorem ten_pow_log10 {x : ℝ} (hx : 0 < x) : (10 : ℝ) ^ log10 x = x := by
  have h : Real.log 10 * (Real.log x / Real.log 10) = Real.log x := by
    have := log_ten_pos.ne'
    field_simp
  rw [log10, Real.rpow_def_of_pos (by norm_num), h, Real.exp_log hx]

theorem log10_mul {x y : ℝ} (hx : 0 < x) (hy : 0 < y) : log10 (x * y) = log10 x + log10 y := by
  rw [log10, log10, log10, Real.log_mul hx.ne' hy.ne', add_div]

theorem logspace_length (a b : ℝ) (num : Nat) : (logspace a b num).length = num := by
  simp [logspace, linspace]

theorem logspace_pos {a b : ℝ} {num : Nat} {x : ℝ} (h : x ∈ logspace a b num) : 0 < x := by
  simp only [logspace, List.mem_map] at h
  obtain ⟨e, _, rfl⟩ := h
  exact Real.rpow_pos_of_pos (by norm_num) _

theorem logspace_getElem? {a b : ℝ} {num i : Nat} (h : i < num) :
    (logspace a b num)[i]? = some ((10 : ℝ) ^ (a + i * ((b - a) / ((num - 1 : Nat) : ℝ)))) := by
  simp [logspace, linspace, h]

theorem logspace_head {a b : ℝ} {num : Nat} (h : 0 < num) :
    (logspace a b num).head? = some ((10 : ℝ) ^ a) := by
  rw [List.head?_eq_getElem?, logspace_getElem? h]
  simp

theorem logspace_last {a b : ℝ} {num : Nat} (h : 2 ≤ num) :
    (logspace a b num).getLast? = some ((10 : ℝ) ^ b) := by
  rw [List.getLast?_eq_getElem?, logspace_length, logspace_getElem? (by omega)]
  have : ((num - 1 : Nat) : ℝ) ≠ 0 := by
    have : 0 < num - 1 := by omega
    positivity
  congr 2
  field_simp
  ring

theorem logspace_lt {a b : ℝ} {num : Nat} (hab : a < b) :
    (logspace a b num).Pairwise (· < ·) := by
  rcases Nat.lt_or_ge num 2 with h | h
  · have hl := logspace_length a b num
    match hh : logspace a b num with
    | [] => exact List.Pairwise.nil
    | [x] => simp
    | x :: y :: l => rw [hh] at hl; simp at hl; omega
  · have h1 : (0 : ℝ) < ((num - 1 : Nat) : ℝ) := by
      have : 0 < num - 1 := by omega
      exact_mod_cast this
    rw [List.pairwise_iff_getElem]
    intro i j hi hj hij
    rw [logspace_length] at hi hj
    have ei := (List.getElem?_eq_some_iff.1 (logspace_getElem? (a := a) (b := b) hi)).2
    have ej := (List.getElem?_eq_some_iff.1 (logspace_getElem? (a := a) (b := b) hj)).2
    rw [ei, ej]
    refine Real.rpow_lt_rpow_of_exponent_lt (by norm_num) ?_
    have hd : 0 < (b - a) / ((num - 1 : Nat) : ℝ) := div_pos (by linarith) h1
    have : (i : ℝ) < j := by exact_mod_cast hij
    nlinarith

theorem logspace_gt {a b : ℝ} {num : Nat} (hab : b < a) :
    (logspace a b num).Pairwise (· > ·) := by
  rcases Nat.lt_or_ge num 2 with h | h
  · have hl := logspace_length a b num
    match hh : logspace a b num with
    | [] => exact List.Pairwise.nil
    | [x] => simp
    | x :: y :: l => rw [hh] at hl; simp at hl; omega
  · have h1 : (0 : ℝ) < ((num - 1 : Nat) : ℝ) := by
      have : 0 < num - 1 := by omega
      exact_mod_cast this
    rw [List.pairwise_iff_getElem]
    intro i j hi hj hij
    rw [logspace_length] at hi hj
    have ei := (List.getElem?_eq_some_iff.1 (logspace_getElem? (a := a) (b := b) hi)).2
    have ej := (List.getElem?_eq_some_iff.1 (logspace_getElem? (a := a) (b := b) hj)).2
    rw [ei, ej]
    refine Real.rpow_lt_rpow_of_exponent_lt (by norm_num) ?_
    have hd : (b - a) / ((num - 1 : Nat) : ℝ) < 0 := div_neg_of_neg_of_pos (by linarith) h1
    have : (i : ℝ) < j := by exact_mod_cast hij
    nlinarith

theorem logspace_decreases {m eps : ℝ} (hm : 0 < m) (he : 0 < eps) (he1 : eps < 1) {num : Nat}
    (hn : 2 ≤ num) :
    DecreasesFrom (logspace (log10 m) (log10 (eps * m)) num) m (eps * m) := by
  refine ⟨logspace_gt ?_, fun x hx => logspace_pos hx, ?_, ?_⟩
  · unfold log10
    exact div_lt_div_of_pos_right (Real.log_lt_log (by positivity) (by nlinarith)) log_ten_pos
  · rw [logspace_head (by omega), ten_pow_log10 hm]
  · rw [logspace_last hn, ten_pow_log10 (by positivity)]

theorem logspace_rev_decreases {m eps : ℝ} (hm : 0 < m) (he : 0 < eps) (he1 : eps < 1) {num : Nat}
    (hn : 2 ≤ num) :
    DecreasesFrom (logspace (log10 (m * eps)) (log10 m) num).reverse m (eps * m) := by
  refine ⟨?_, fun x hx => logspace_pos (List.mem_reverse.1 hx), ?_, ?_⟩
  · rw [List.pairwise_reverse]
    refine logspace_lt ?_
    unfold log10
    exact div_lt_div_of_pos_right (Real.log_lt_log (by positivity) (by nlinarith)) log_ten_pos
  · rw [List.head?_reverse, logspace_last hn, ten_pow_log10 hm]
  · rw [List.getLast?_reverse, logspace_head (by omega), ten_pow_log10 (by positivity), mul_comm]

theorem alphaGrid_length {X : Fin n → Fin (p + 1) → ℝ} {y : Fin n → ℝ} {l1 : ℝ} {fi : Bool}
    {eps : ℝ} {num : Nat} {g : List ℝ} (h : alphaGrid X y l1 fi eps num = .ok g) :
    g.length = num := by
  unfold alphaGrid at h
  split at h
  · cases h
  · simp only at h
    split at h <;> injection h with h <;> subst h <;> simp [logspace_length]

theorem expand_getElem? {as : List ℝ} {rows : List (List ℝ)} {num : Nat}
    (hl : as.length = rows.length) (hr : ∀ r ∈ rows, r.length = num) :
    (expand as rows).length = as.length * num ∧
    ∀ a l, l < num → (expand as rows)[a * num + l]? =
      (as[a]?).bind fun al => (rows[a]?).bind fun r => (r[l]?).map fun x => ⟨x, al⟩ := by
  induction as generalizing rows with
  | nil => simp [expand]
  | cons a0 as ih =>
    cases rows with
    | nil => simp at hl
    | cons r rows =>
      have hr0 : r.length = num := hr r (by simp)
      obtain ⟨ih1, ih2⟩ := ih (by simpa using hl) fun r h => hr r (List.mem_cons_of_mem _ h)
      constructor
      · simp only [expand, List.length_append, List.length_map, List.length_cons, ih1, hr0]
        ring
      · intro a l hlt
        simp only [expand]
        cases a with
        | zero =>
          rw [List.getElem?_append_left (by simp [hr0, hlt])]
          simp
        | succ a =>
          rw [List.getElem?_append_right (by simp [hr0]; nlinarith)]
          have : (a + 1) * num + l - (List.map (fun l => (⟨l, a0⟩ : RegParam)) r).length =
              a * num + l := by
            rw [List.length_map, hr0, Nat.succ_mul]; omega
          rw [this, ih2 a l hlt]
          simp

theorem mapE_getElem? {α β : Type} {f : α → Except PyErr β} {as : List α} {bs : List β}
    (h : mapE f as = .ok bs) : as.length = bs.length ∧
      ∀ (i : Nat) (a : α), as[i]? = some a → ∃ b, bs[i]? = some b ∧ f a = .ok b := by
  induction as generalizing bs with
  | nil => simp only [mapE, Except.ok.injEq] at h; subst h; simp
  | cons a as ih =>
    simp only [mapE] at h
    split at h
    · cases h
    · rename_i b hb
      split at h
      · cases h
      · rename_i bs' hbs
        injection h with h
        subst h
        obtain ⟨i1, i2⟩ := ih hbs
        refine ⟨by simp [i1], ?_⟩
        intro i x hx
        cases i with
        | zero =>
          simp only [List.getElem?_cons_zero, Option.some.injEq] at hx
          subst hx
          exact ⟨b, by simp, hb⟩
        | succ i =>
          simp only [List.getElem?_cons_succ] at hx ⊢
          exact i2 i x hx

theorem maxAbs_div_le {v : Fin (p + 1) → ℝ} {c lam : ℝ} (hc : 0 < c) :
    maxAbs v / c ≤ lam ↔ ∀ j, |v j| ≤ lam * c := by
  rw [div_le_iff₀ hc, maxAbs, Finset.sup'_le_iff]
  simp

theorem sum_single_mul (f : Fin p → ℝ) (j : Fin p) (t : ℝ) :
    ∑ k, f k * (Pi.single j t : Fin p → ℝ) k = f j * t := by
  rw [Finset.sum_eq_single j]
  · simp
  · intro k _ hk; simp [Pi.single_eq_of_ne hk]
  · simp

theorem sum_single_abs (j : Fin p) (t : ℝ) :
    ∑ k, |(Pi.single j t : Fin p → ℝ) k| = |t| := by
  rw [Finset.sum_eq_single j]
  · simp
  · intro k _ hk; simp [Pi.single_eq_of_ne hk]
  · simp

theorem sum_single_sq (j : Fin p) (t : ℝ) :
    ∑ k, (Pi.single j t : Fin p → ℝ) k ^ 2 = t ^ 2 := by
  rw [Finset.sum_eq_single j]
  · simp
  · intro k _ hk; simp [Pi.single_eq_of_ne hk]
  · simp

/-- A quadratic `-(c t) + Q t² + d |t|` that is nonnegative near zero has `|c| ≤ d`. -/
theorem abs_le_of_quadratic {c d Q : ℝ} (hQ : 0 ≤ Q)
    (h : ∀ t, |t| ≤ 1 → 0 ≤ -(c * t) + Q * t ^ 2 + d * |t|) : |c| ≤ d := by
  by_contra hlt
  push Not at hlt
  set e := |c| - d with he
  have hepos : 0 < e := by linarith
  -- step s in the direction of the sign of c
  set s := min 1 (e / (2 * (Q + 1))) with hs
  have hs0 : 0 < s := lt_min one_pos (by positivity)
  have hs1 : s ≤ 1 := min_le_left _ _
  have hs2 : s * (2 * (Q + 1)) ≤ e := by
    have : s ≤ e / (2 * (Q + 1)) := min_le_right _ _
    rwa [le_div_iff₀ (by positivity)] at this
  rcases le_or_gt 0 c with hc | hc
  · have h1 := h s (by rw [abs_of_pos hs0]; exact hs1)
    rw [abs_of_pos hs0] at h1
    rw [abs_of_nonneg hc] at he
    nlinarith [mul_pos hs0 hs0]
  · have h1 := h (-s) (by rw [abs_neg, abs_of_pos hs0]; exact hs1)
    rw [abs_neg, abs_of_pos hs0] at h1
    rw [abs_of_neg hc] at he
    nlinarith [mul_pos hs0 hs0]

theorem sum_cross (A : Fin n → Fin p → ℝ) (r : Fin n → ℝ) (b : Fin p → ℝ) :
    ∑ i, r i * ∑ j, A i j * b j = ∑ j, (∑ i, A i j * r i) * b j := by
  simp only [Finset.mul_sum, Finset.sum_mul]
  rw [Finset.sum_comm]
  exact Finset.sum_congr rfl fun j _ => Finset.sum_congr rfl fun i _ => by ring

theorem enObj_zero (A : Fin n → Fin p → ℝ) (r : Fin n → ℝ) (lam alpha b0 : ℝ) :
    enObj A r lam alpha b0 (fun _ => 0) = 1 / (2 * n) * ∑ i, (r i - b0) ^ 2 := by
  simp [enObj]

theorem enObj_expand [NeZero n] (A : Fin n → Fin p → ℝ) (r : Fin n → ℝ) (lam alpha : ℝ)
    (b : Fin p → ℝ) :
    enObj A r lam alpha 0 b = enObj A r lam alpha 0 (fun _ => 0) +
      (-(1 / n * ∑ j, (∑ i, A i j * r i) * b j) + 1 / (2 * n) * ∑ i, (∑ j, A i j * b j) ^ 2 +
        lam * (alpha * ∑ j, |b j| + (1 - alpha) / 2 * ∑ j, b j ^ 2)) := by
  rw [enObj_zero, ← sum_cross]
  unfold enObj
  have h : ∑ i, (r i - 0 - ∑ j, A i j * b j) ^ 2 =
      ∑ i, (r i - 0) ^ 2 - 2 * ∑ i, r i * ∑ j, A i j * b j + ∑ i, (∑ j, A i j * b j) ^ 2 := by
    rw [Finset.mul_sum, ← Finset.sum_sub_distrib, ← Finset.sum_add_distrib]
    exact Finset.sum_congr rfl fun i _ => by ring
  rw [h]
  have hn : (n : ℝ) ≠ 0 := by exact_mod_cast NeZero.ne n
  field_simp
  ring

theorem en_zero_optimal_core [NeZero n] (A : Fin n → Fin (p + 1) → ℝ) (r : Fin n → ℝ)
    {lam alpha : ℝ} (hl : 0 ≤ lam) (ha : 0 < alpha) (ha1 : alpha ≤ 1) :
    ZeroOptimalNoIntercept (enObj A r lam alpha) ↔
      maxAbs (fun j => ∑ i, A i j * r i) / (n * alpha) ≤ lam := by
  have hn : (0 : ℝ) < n := by exact_mod_cast Nat.pos_of_ne_zero (NeZero.ne n)
  rw [maxAbs_div_le (by positivity)]
  constructor
  · intro h j
    set c := ∑ i, A i j * r i with hc
    have hq : ∀ t, |t| ≤ 1 → 0 ≤ -((1 / n * c) * t) +
        (1 / (2 * n) * ∑ i, A i j ^ 2 + lam * (1 - alpha) / 2) * t ^ 2 + lam * alpha * |t| := by
      intro t _
      have h1 := h (Pi.single j t)
      rw [enObj_expand A r lam alpha (Pi.single j t)] at h1
      simp only [sum_single_mul, sum_single_abs, sum_single_sq, mul_pow] at h1
      rw [← Finset.sum_mul] at h1
      rw [← hc] at h1
      linarith
    have hQ : 0 ≤ 1 / (2 * n) * ∑ i, A i j ^ 2 + lam * (1 - alpha) / 2 := by
      have : 0 ≤ ∑ i, A i j ^ 2 := Finset.sum_nonneg fun _ _ => sq_nonneg _
      have : 0 ≤ lam * (1 - alpha) := mul_nonneg hl (by linarith)
      positivity
    have h2 := abs_le_of_quadratic hQ hq
    rw [abs_mul, abs_of_pos (by positivity : (0 : ℝ) < 1 / n)] at h2
    have : |c| = n * (1 / n * |c|) := by field_simp
    rw [this]
    nlinarith
  · intro h b
    rw [enObj_expand A r lam alpha b]
    have h1 : ∑ j, (∑ i, A i j * r i) * b j ≤ lam * (n * alpha) * ∑ j, |b j| := by
      rw [Finset.mul_sum]
      refine Finset.sum_le_sum fun j _ => ?_
      calc _ ≤ |(∑ i, A i j * r i) * b j| := le_abs_self _
        _ = |∑ i, A i j * r i| * |b j| := abs_mul _ _
        _ ≤ _ := mul_le_mul_of_nonneg_right (h j) (abs_nonneg _)
    have h2 : 0 ≤ 1 / (2 * (n : ℝ)) * ∑ i, (∑ j, A i j * b j) ^ 2 := by
      have : 0 ≤ ∑ i, (∑ j, A i j * b j) ^ 2 := Finset.sum_nonneg fun _ _ => sq_nonneg _
      positivity
    have h3 : 0 ≤ lam * ((1 - alpha) / 2 * ∑ j, b j ^ 2) := by
      have : 0 ≤ ∑ j, b j ^ 2 := Finset.sum_nonneg fun _ _ => sq_nonneg _
      have : 0 ≤ (1 - alpha) / 2 := by linarith
      positivity
    have h4 : 1 / n * ∑ j, (∑ i, A i j * r i) * b j ≤ lam * (alpha * ∑ j, |b j|) := by
      calc _ ≤ 1 / n * (lam * (n * alpha) * ∑ j, |b j|) :=
            mul_le_mul_of_nonneg_left h1 (by positivity)
        _ = _ := by field_simp
    rw [mul_add]
    linarith

theorem enObj_centre [NeZero n] (X : Fin n → Fin p → ℝ) (y : Fin n → ℝ) (lam alpha b0 : ℝ)
    (b : Fin p → ℝ) :
    enObj X y lam alpha b0 b =
      enObj (fun i j => centre true (fun i => X i j) i) (centre true y) lam alpha 0 b +
        1 / 2 * (mean y - b0 - ∑ j, (mean fun i => X i j) * b j) ^ 2 := by
  have hn : (n : ℝ) ≠ 0 := by exact_mod_cast NeZero.ne n
  unfold enObj
  simp only [centre, if_true]
  set d := mean y - b0 - ∑ j, (mean fun i => X i j) * b j with hd
  set u : Fin n → ℝ := fun i => y i - mean y - 0 - ∑ j, (X i j - mean fun i => X i j) * b j with hu
  have h1 : ∀ i, (y i - b0 - ∑ j, X i j * b j) ^ 2 = u i ^ 2 + 2 * d * u i + d ^ 2 := by
    intro i
    have : y i - b0 - ∑ j, X i j * b j = u i + d := by
      simp only [hu, hd, sub_mul, Finset.sum_sub_distrib]; ring
    rw [this]; ring
  have h2 : ∑ i, u i = 0 := by
    have hy : ∑ i, (y i - mean y) = 0 := by
      rw [Finset.sum_sub_distrib, Finset.sum_const, Finset.card_univ, Fintype.card_fin,
        nsmul_eq_mul, mean]
      field_simp; ring
    have hx : ∀ j, ∑ i, (X i j - mean fun i => X i j) = 0 := by
      intro j
      rw [Finset.sum_sub_distrib, Finset.sum_const, Finset.card_univ, Fintype.card_fin,
        nsmul_eq_mul, mean]
      field_simp; ring
    simp only [hu, sub_zero]
    rw [Finset.sum_sub_distrib, hy, Finset.sum_comm]
    simp only [← Finset.sum_mul, hx, zero_mul, Finset.sum_const_zero, sub_zero]
  rw [Finset.sum_congr rfl fun i _ => h1 i, Finset.sum_add_distrib, Finset.sum_add_distrib,
    ← Finset.mul_sum, h2, Finset.sum_const, Finset.card_univ, Fintype.card_fin, nsmul_eq_mul]
  field_simp
  ring

theorem poisObj_zero (A : Fin n → Fin p → ℝ) (y : Fin n → ℝ) (lam alpha b0 : ℝ) :
    poisObj A y lam alpha b0 (fun _ => 0) = 1 / n * ∑ i, (Real.exp b0 - y i * b0) := by
  simp [poisObj]

/-- Difference to the zero model, with `u = (b0' - b0) + X b` and `exp b0` pulled out. -/
theorem poisObj_diff (A : Fin n → Fin p → ℝ) (y : Fin n → ℝ) (lam alpha b0 b0' : ℝ)
    (b : Fin p → ℝ) :
    poisObj A y lam alpha b0' b - poisObj A y lam alpha b0 (fun _ => 0) =
      1 / n * ∑ i, (Real.exp b0 * (Real.exp (b0' - b0 + ∑ j, A i j * b j) - 1) -
        y i * (b0' - b0 + ∑ j, A i j * b j)) +
      lam * (alpha * ∑ j, |b j| + (1 - alpha) / 2 * ∑ j, b j ^ 2) := by
  rw [poisObj_zero]
  unfold poisObj
  have : ∀ i, Real.exp (b0' + ∑ j, A i j * b j) =
      Real.exp b0 * Real.exp (b0' - b0 + ∑ j, A i j * b j) := by
    intro i; rw [← Real.exp_add]; congr 1; ring
  simp only [this]
  rw [add_sub_right_comm, ← mul_sub, ← Finset.sum_sub_distrib]
  congr 2
  exact Finset.sum_congr rfl fun i _ => by ring

/-- If the zero model is a stationary point in the intercept (`∑ exp b0 = ∑ y`), or the intercept is
    fixed, then optimality of the zero model is a bound on the gradient. -/
theorem pois_core [NeZero n] (A : Fin n → Fin (p + 1) → ℝ) (y : Fin n → ℝ) {lam alpha b0 : ℝ}
    (hl : 0 ≤ lam) (ha : 0 < alpha) (ha1 : alpha ≤ 1) :
    (∀ b, poisObj A y lam alpha b0 (fun _ => 0) ≤ poisObj A y lam alpha b0 b) ↔
      ∀ j, |∑ i, A i j * (y i - Real.exp b0)| ≤ lam * (n * alpha) := by
  have hn : (0 : ℝ) < n := by exact_mod_cast Nat.pos_of_ne_zero (NeZero.ne n)
  constructor
  · intro h j
    set c := ∑ i, A i j * (y i - Real.exp b0) with hc
    -- bound the row entries to stay in the region |A t| ≤ 1
    set B := 1 + ∑ i, |A i j| with hB
    have hB1 : 0 < B := by
      have : 0 ≤ ∑ i, |A i j| := Finset.sum_nonneg fun _ _ => abs_nonneg _
      linarith
    have hAB : ∀ i, |A i j| ≤ B := by
      intro i
      have := Finset.single_le_sum (f := fun i => |A i j|) (fun _ _ => abs_nonneg _)
        (Finset.mem_univ i)
      linarith
    have hq : ∀ t, |t| ≤ 1 → 0 ≤ -((1 / n * c / B) * t) +
        ((1 / n * ∑ i, Real.exp b0 * A i j ^ 2 + lam * (1 - alpha) / 2) / B ^ 2) * t ^ 2 +
          lam * alpha / B * |t| := by
      intro t ht
      have h1 := h (Pi.single j (t / B))
      have h2 := poisObj_diff A y lam alpha b0 b0 (Pi.single j (t / B))
      simp only [sum_single_mul, sum_single_abs, sum_single_sq, sub_self, zero_add] at h2
      have h3 : ∀ i, Real.exp b0 * (Real.exp (A i j * (t / B)) - 1) - y i * (A i j * (t / B)) ≤
          -(A i j * (y i - Real.exp b0) * (t / B)) + Real.exp b0 * A i j ^ 2 * (t / B) ^ 2 := by
        intro i
        have hle : |A i j * (t / B)| ≤ 1 := by
          rw [abs_mul, abs_div, abs_of_pos hB1, ← mul_div_assoc, div_le_one hB1]
          calc _ ≤ B * 1 := mul_le_mul (hAB i) ht (abs_nonneg _) hB1.le
            _ = B := mul_one B
        have := Real.abs_exp_sub_one_sub_id_le hle
        have h4 := (abs_le.1 this).2
        have h5 := Real.exp_pos b0
        nlinarith
      have h4 := Finset.sum_le_sum fun i (_ : i ∈ Finset.univ) => h3 i
      rw [Finset.sum_add_distrib, Finset.sum_neg_distrib, ← Finset.sum_mul, ← Finset.sum_mul,
        ← hc] at h4
      have h5 := mul_le_mul_of_nonneg_left h4 (by positivity : (0 : ℝ) ≤ 1 / n)
      rw [abs_div, abs_of_pos hB1] at h2
      have h6 : 0 ≤ 1 / n * (-(c * (t / B)) + (∑ i, Real.exp b0 * A i j ^ 2) * (t / B) ^ 2) +
          lam * (alpha * (|t| / B) + (1 - alpha) / 2 * (t / B) ^ 2) := by linarith
      have h7 : 1 / n * (-(c * (t / B)) + (∑ i, Real.exp b0 * A i j ^ 2) * (t / B) ^ 2) +
          lam * (alpha * (|t| / B) + (1 - alpha) / 2 * (t / B) ^ 2) = -((1 / n * c / B) * t) +
        ((1 / n * ∑ i, Real.exp b0 * A i j ^ 2 + lam * (1 - alpha) / 2) / B ^ 2) * t ^ 2 +
          lam * alpha / B * |t| := by
        field_simp
        ring
      rw [← h7]; exact h6
    have hQ : 0 ≤ (1 / n * ∑ i, Real.exp b0 * A i j ^ 2 + lam * (1 - alpha) / 2) / B ^ 2 := by
      have : 0 ≤ ∑ i, Real.exp b0 * A i j ^ 2 :=
        Finset.sum_nonneg fun _ _ => mul_nonneg (Real.exp_pos _).le (sq_nonneg _)
      have : 0 ≤ lam * (1 - alpha) := mul_nonneg hl (by linarith)
      positivity
    have h2 := abs_le_of_quadratic hQ hq
    rw [abs_div, abs_mul, abs_of_pos (by positivity : (0 : ℝ) < 1 / n), abs_of_pos hB1,
      div_le_div_iff_of_pos_right hB1] at h2
    have : |c| = n * (1 / n * |c|) := by field_simp
    rw [this]
    nlinarith
  · intro h b
    have h0 := poisObj_diff A y lam alpha b0 b0 b
    simp only [sub_self, zero_add] at h0
    have h1 : ∀ i, -((y i - Real.exp b0) * ∑ j, A i j * b j) ≤
        Real.exp b0 * (Real.exp (∑ j, A i j * b j) - 1) - y i * (∑ j, A i j * b j) := by
      intro i
      have := Real.add_one_le_exp (∑ j, A i j * b j)
      have := Real.exp_pos b0
      nlinarith
    have h2 := Finset.sum_le_sum fun i (_ : i ∈ Finset.univ) => h1 i
    rw [Finset.sum_neg_distrib, sum_cross] at h2
    have h3 : ∑ j, (∑ i, A i j * (y i - Real.exp b0)) * b j ≤ lam * (n * alpha) * ∑ j, |b j| := by
      rw [Finset.mul_sum]
      refine Finset.sum_le_sum fun j _ => ?_
      calc _ ≤ |(∑ i, A i j * (y i - Real.exp b0)) * b j| := le_abs_self _
        _ = |∑ i, A i j * (y i - Real.exp b0)| * |b j| := abs_mul _ _
        _ ≤ _ := mul_le_mul_of_nonneg_right (h j) (abs_nonneg _)
    have h4 : -(lam * (alpha * ∑ j, |b j|)) ≤ 1 / n * ∑ i, (Real.exp b0 *
        (Real.exp (∑ j, A i j * b j) - 1) - y i * (∑ j, A i j * b j)) := by
      calc _ = 1 / n * -(lam * (n * alpha) * ∑ j, |b j|) := by field_simp
        _ ≤ _ := mul_le_mul_of_nonneg_left (by linarith) (by positivity)
    have h5 : 0 ≤ lam * ((1 - alpha) / 2 * ∑ j, b j ^ 2) := by
      have : 0 ≤ ∑ j, b j ^ 2 := Finset.sum_nonneg fun _ _ => sq_nonneg _
      have : 0 ≤ (1 - alpha) / 2 := by linarith
      positivity
    rw [mul_add] at h0
    linarith

theorem pois_intercept_stationary [NeZero n] {X : Fin n → Fin (p + 1) → ℝ} {y : Fin n → ℝ}
    {lam alpha b0 : ℝ} (hm : 0 < mean y)
    (h : ∀ b0' b, poisObj X y lam alpha b0 (fun _ => 0) ≤ poisObj X y lam alpha b0' b) :
    Real.exp b0 = mean y := by
  have hn : (0 : ℝ) < n := by exact_mod_cast Nat.pos_of_ne_zero (NeZero.ne n)
  have h1 := h (Real.log (mean y)) (fun _ => 0)
  rw [poisObj_zero, poisObj_zero, Real.exp_log hm] at h1
  have hs : ∀ a c : ℝ, 1 / n * ∑ i, (a - y i * c) = a - mean y * c := by
    intro a c
    rw [Finset.sum_sub_distrib, ← Finset.sum_mul, Finset.sum_const, Finset.card_univ,
      Fintype.card_fin, nsmul_eq_mul, mean]
    field_simp
  rw [hs, hs] at h1
  by_contra hne
  have hu : b0 - Real.log (mean y) ≠ 0 := by
    intro h0
    have : b0 = Real.log (mean y) := by linarith
    exact hne (by rw [this, Real.exp_log hm])
  have h2 := Real.add_one_lt_exp hu
  have h3 : Real.exp b0 = mean y * Real.exp (b0 - Real.log (mean y)) := by
    rw [Real.exp_sub, Real.exp_log hm]; field_simp
  nlinarith

theorem pois_sufficient [NeZero n] {A : Fin n → Fin (p + 1) → ℝ} {y : Fin n → ℝ}
    {lam alpha b0 : ℝ} (hl : 0 ≤ lam) (ha1 : alpha ≤ 1)
    (h0 : ∑ i, (y i - Real.exp b0) = 0)
    (h : ∀ j, |∑ i, A i j * (y i - Real.exp b0)| ≤ lam * (n * alpha)) (b0' : ℝ)
    (b : Fin (p + 1) → ℝ) :
    poisObj A y lam alpha b0 (fun _ => 0) ≤ poisObj A y lam alpha b0' b := by
  have hn : (0 : ℝ) < n := by exact_mod_cast Nat.pos_of_ne_zero (NeZero.ne n)
  have hd := poisObj_diff A y lam alpha b0 b0' b
  set d := b0' - b0
  have h1 : ∀ i, -((y i - Real.exp b0) * d + (y i - Real.exp b0) * ∑ j, A i j * b j) ≤
      Real.exp b0 * (Real.exp (d + ∑ j, A i j * b j) - 1) - y i * (d + ∑ j, A i j * b j) := by
    intro i
    have := Real.add_one_le_exp (d + ∑ j, A i j * b j)
    have := Real.exp_pos b0
    nlinarith
  have h2 := Finset.sum_le_sum fun i (_ : i ∈ Finset.univ) => h1 i
  rw [Finset.sum_neg_distrib, Finset.sum_add_distrib, ← Finset.sum_mul, h0, sum_cross, zero_mul,
    zero_add] at h2
  have h3 : ∑ j, (∑ i, A i j * (y i - Real.exp b0)) * b j ≤ lam * (n * alpha) * ∑ j, |b j| := by
    rw [Finset.mul_sum]
    refine Finset.sum_le_sum fun j _ => ?_
    calc _ ≤ |(∑ i, A i j * (y i - Real.exp b0)) * b j| := le_abs_self _
      _ = |∑ i, A i j * (y i - Real.exp b0)| * |b j| := abs_mul _ _
      _ ≤ _ := mul_le_mul_of_nonneg_right (h j) (abs_nonneg _)
  have h4 : -(lam * (alpha * ∑ j, |b j|)) ≤ 1 / n * ∑ i, (Real.exp b0 *
      (Real.exp (d + ∑ j, A i j * b j) - 1) - y i * (d + ∑ j, A i j * b j)) := by
    calc _ = 1 / n * -(lam * (n * alpha) * ∑ j, |b j|) := by field_simp
      _ ≤ _ := mul_le_mul_of_nonneg_left (by linarith) (by positivity)
  have h5 : 0 ≤ lam * ((1 - alpha) / 2 * ∑ j, b j ^ 2) := by
    have : 0 ≤ ∑ j, b j ^ 2 := Finset.sum_nonneg fun _ _ => sq_nonneg _
    have : 0 ≤ (1 - alpha) / 2 := by linarith
    positivity
  rw [mul_add] at hd
  linarith

/-- Two rows, one feature: `max |Xᵀy| = 1`, `n = 2`. -/
theorem demo_cross : maxAbs (crossProd true (fun i : Fin 2 => fun _ : Fin 1 => if i = 0 then (1 : ℝ) else -1)
    ![3, 1]) = 2 := by
  have : crossProd true (fun i : Fin 2 => fun _ : Fin 1 => if i = 0 then (1 : ℝ) else -1) ![3, 1] =
      fun _ => 2 := by
    funext j
    simp [crossProd, centre, mean, Fin.sum_univ_succ]
    norm_num
  rw [this]
  simp [maxAbs]

theorem demo_pois : poisLambdaMax (fun i : Fin 2 => fun _ : Fin 1 => if i = 0 then (1 : ℝ) else -1)
    ![3, 1] 1 = 1 := by
  have : (fun _ : Fin 1 => ∑ i : Fin 2, (if i = 0 then (1 : ℝ) else -1) *
      (![(3 : ℝ), 1] i - mean ![(3 : ℝ), 1])) = fun _ => 2 := by
    funext j
    simp [mean, Fin.sum_univ_succ]
    norm_num
  rw [poisLambdaMax, this]
  simp [maxAbs]

end Verif.Grid
