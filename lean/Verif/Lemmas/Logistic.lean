import Verif.Model.Logistic
import Verif.Spec.Logistic
import Verif.Lemmas.Grid
import Verif.Lemmas.Utils
import Verif.Lemmas.Reduce
import Mathlib.Analysis.SpecialFunctions.ExpDeriv
import Mathlib.Analysis.SpecialFunctions.Log.Deriv
import Mathlib.Analysis.Calculus.Deriv.Pow
/-! Lemmas on the logistic regression. -/
namespace Verif.Logistic
open Verif.Py Verif.Utils Verif.Spec.Grid Verif.Spec.Logistic
variable {n p k : Nat}

theorem applyMask_eq (mask : Option (Fin p → ℝ)) (w : Fin p → ℝ) (j : Fin p) :
    applyMask mask w j = w j * (mask.getD fun _ => 1) j := by
  cases mask <;> simp [applyMask]

theorem applyMaskM_eq (mask : Option (Fin k → Fin p → ℝ)) (w : Fin k → Fin p → ℝ) (c : Fin k)
    (j : Fin p) : applyMaskM mask w c j = w c j * (mask.getD fun _ _ => 1) c j := by
  cases mask <;> simp [applyMaskM]

theorem applyMask_mul (mask : Option (Fin p → ℝ)) (w : Fin p → ℝ) (j : Fin p) (x : ℝ) :
    applyMask mask w j * x = w j * (mask.getD fun _ => 1) j * x := by rw [applyMask_eq]

theorem applyMaskM_mul (mask : Option (Fin k → Fin p → ℝ)) (w : Fin k → Fin p → ℝ) (c : Fin k)
    (j : Fin p) (x : ℝ) :
    applyMaskM mask w c j * x = w c j * (mask.getD fun _ _ => 1) c j * x := by rw [applyMaskM_eq]

theorem deriv_softplus {f : ℝ → ℝ} {f' : ℝ} (hf : HasDerivAt f f' 0) :
    HasDerivAt (fun t => Real.log (1 + Real.exp (-f t))) ((expit (f 0) - 1) * f') 0 := by
  have h1 : 1 + Real.exp (-f 0) ≠ 0 := by positivity
  have h2 := ((hf.fun_neg.exp).const_add 1).log h1
  refine h2.congr_deriv ?_
  unfold expit
  field_simp
  ring

theorem bin_line (X : Fin n → Fin p → ℝ) (s sw : Fin n → ℝ) (a b e : ℝ) (w d : Fin p → ℝ) :
    HasDerivAt (fun t : ℝ => binObj X s sw a (b + t * e) (fun j => w j + t * d j))
      (1 / n * ∑ i, sw i * ((expit (s i * (b + ∑ j, X i j * w j)) - 1) * s i) *
        (e + ∑ j, X i j * d j) + a * ∑ j, w j * d j) 0 := by
  unfold binObj
  have hη : ∀ i, HasDerivAt (fun t : ℝ => s i * (b + t * e + ∑ j, X i j * (w j + t * d j)))
      (s i * (e + ∑ j, X i j * d j)) 0 := by
    intro i
    refine HasDerivAt.const_mul (s i) (HasDerivAt.fun_add ?_ (HasDerivAt.fun_sum fun j _ => ?_))
    · simpa using ((hasDerivAt_id (0 : ℝ)).mul_const e).const_add b
    · simpa using (((hasDerivAt_id (0 : ℝ)).mul_const (d j)).const_add (w j)).const_mul (X i j)
  have h1 : HasDerivAt (fun t : ℝ => ∑ i, sw i * Real.log (1 + Real.exp (-(s i * (b + t * e +
      ∑ j, X i j * (w j + t * d j))))))
      (∑ i, sw i * ((expit (s i * (b + ∑ j, X i j * w j)) - 1) * s i) *
        (e + ∑ j, X i j * d j)) 0 := by
    refine HasDerivAt.fun_sum fun i _ => ?_
    refine ((deriv_softplus (hη i)).const_mul (sw i)).congr_deriv ?_
    simp only [zero_mul, add_zero]
    ring
  have h2 : HasDerivAt (fun t : ℝ => ∑ j, (w j + t * d j) ^ 2) (∑ j, 2 * (w j * d j)) 0 := by
    refine HasDerivAt.fun_sum fun j _ => ?_
    have h0 : HasDerivAt (fun t : ℝ => w j + t * d j) (d j) 0 := by
      simpa using ((hasDerivAt_id (0 : ℝ)).mul_const (d j)).const_add (w j)
    refine (h0.fun_pow 2).congr_deriv ?_
    simp
    ring
  have h3 := (h1.const_mul (1 / (n : ℝ))).fun_add (h2.const_mul (a / 2))
  refine h3.congr_deriv ?_
  rw [← Finset.mul_sum]
  ring

theorem bin_value (X : Fin n → Fin p → ℝ) (y : Fin n → ℝ) (alpha : ℝ)
    (mask : Option (Fin p → ℝ)) (sw : Fin n → ℝ) (w : Fin p → ℝ) (b : Option ℝ) :
    (binLossGrad X y alpha mask sw w b).1 = binObj X y sw alpha (b.getD 0) (applyMask mask w) := by
  simp only [binLossGrad, binObj, logLogistic]
  congr 1
  · simp only [mul_neg, Finset.sum_neg_distrib, neg_neg]
    rw [div_eq_inv_mul, one_div]
    simp only [add_comm (b.getD 0)]
  · simp only [pow_two]
    ring

theorem bin_dir (X : Fin n → Fin p → ℝ) (z0 : Fin n → ℝ) (a e : ℝ) (w d m : Fin p → ℝ) :
    1 / n * ∑ i, z0 i * (e + ∑ j, X i j * (d j * m j)) + a * ∑ j, w j * (d j * m j) =
      ∑ j, ((∑ i, X i j * z0 i) / n + a * w j) * m j * d j + (∑ i, z0 i) / n * e := by
  simp only [mul_add, Finset.sum_add_distrib]
  rw [Verif.Grid.sum_cross, ← Finset.sum_mul]
  have : ∑ j, ((∑ i, X i j * z0 i) / (n : ℝ) + a * w j) * m j * d j =
      1 / n * ∑ j, (∑ i, X i j * z0 i) * (d j * m j) + a * ∑ j, w j * (d j * m j) := by
    rw [Finset.mul_sum, Finset.mul_sum, ← Finset.sum_add_distrib]
    exact Finset.sum_congr rfl fun j _ => by ring
  rw [this]
  ring

theorem bin_differentiable (X : Fin n → Fin p → ℝ) (s sw : Fin n → ℝ) (a : ℝ) :
    Differentiable ℝ (fun q : (Fin p → ℝ) × ℝ => binObj X s sw a q.2 q.1) := by
  unfold binObj
  refine Differentiable.fun_add (Differentiable.const_mul (Differentiable.fun_sum fun i _ =>
    Differentiable.const_mul (Differentiable.log (by fun_prop) fun q => by positivity) _) _)
    (by fun_prop)

theorem deriv_lse [NeZero k] {f : Fin k → ℝ → ℝ} {f' : Fin k → ℝ}
    (hf : ∀ c, HasDerivAt (f c) (f' c) 0) :
    HasDerivAt (fun t => Real.log (∑ c, Real.exp (f c t)))
      (∑ c, Real.exp (logProb (fun c => f c 0) c) * f' c) 0 := by
  have hpos : 0 < ∑ c, Real.exp (f c 0) := sum_exp_pos _
  have h1 : HasDerivAt (fun t => ∑ c, Real.exp (f c t)) (∑ c, Real.exp (f c 0) * f' c) 0 :=
    HasDerivAt.fun_sum fun c _ => (hf c).exp
  refine (h1.log hpos.ne').congr_deriv ?_
  rw [Finset.sum_div]
  refine Finset.sum_congr rfl fun c _ => ?_
  unfold logProb
  rw [Real.exp_sub, Real.exp_log hpos]
  ring

theorem multi_line [NeZero k] (X : Fin n → Fin p → ℝ) (Y : Fin n → Fin k → ℝ) (sw : Fin n → ℝ)
    (a : ℝ) (B E : Fin k → ℝ) (W D : Fin k → Fin p → ℝ) :
    HasDerivAt (fun t : ℝ => multiObj X Y sw a (fun c => B c + t * E c)
        (fun c j => W c j + t * D c j))
      (1 / n * ∑ i, sw i * ∑ c, (Real.exp (logProb (fun c => B c + ∑ j, X i j * W c j) c) - Y i c) *
        (E c + ∑ j, X i j * D c j) + a * ∑ c, ∑ j, W c j * D c j) 0 := by
  unfold multiObj
  have hη : ∀ i c, HasDerivAt (fun t : ℝ => B c + t * E c + ∑ j, X i j * (W c j + t * D c j))
      (E c + ∑ j, X i j * D c j) 0 := by
    intro i c
    refine HasDerivAt.fun_add ?_ (HasDerivAt.fun_sum fun j _ => ?_)
    · simpa using ((hasDerivAt_id (0 : ℝ)).mul_const (E c)).const_add (B c)
    · simpa using (((hasDerivAt_id (0 : ℝ)).mul_const (D c j)).const_add (W c j)).const_mul (X i j)
  have h1 : HasDerivAt (fun t : ℝ => ∑ i, sw i * (Real.log (∑ c, Real.exp (B c + t * E c +
        ∑ j, X i j * (W c j + t * D c j))) -
      ∑ c, Y i c * (B c + t * E c + ∑ j, X i j * (W c j + t * D c j))))
      (∑ i, sw i * ∑ c, (Real.exp (logProb (fun c => B c + ∑ j, X i j * W c j) c) - Y i c) *
        (E c + ∑ j, X i j * D c j)) 0 := by
    refine HasDerivAt.fun_sum fun i _ => HasDerivAt.const_mul _ ?_
    have h2 := (deriv_lse (hη i)).fun_sub
      (HasDerivAt.fun_sum (u := Finset.univ) fun c _ => (hη i c).const_mul (Y i c))
    refine h2.congr_deriv ?_
    simp only [zero_mul, add_zero, sub_mul, Finset.sum_sub_distrib]
  have h2 : HasDerivAt (fun t : ℝ => ∑ c, ∑ j, (W c j + t * D c j) ^ 2)
      (∑ c, ∑ j, 2 * (W c j * D c j)) 0 := by
    refine HasDerivAt.fun_sum fun c _ => HasDerivAt.fun_sum fun j _ => ?_
    have h0 : HasDerivAt (fun t : ℝ => W c j + t * D c j) (D c j) 0 := by
      simpa using ((hasDerivAt_id (0 : ℝ)).mul_const (D c j)).const_add (W c j)
    refine (h0.fun_pow 2).congr_deriv ?_
    simp
    ring
  have h3 := (h1.const_mul (1 / (n : ℝ))).fun_add (h2.const_mul (a / 2))
  refine h3.congr_deriv ?_
  simp only [← Finset.mul_sum]
  ring

theorem multi_value (X : Fin n → Fin p → ℝ) (Y : Fin n → Fin k → ℝ) (hY : ∀ i, ∑ c, Y i c = 1)
    (alpha : ℝ) (mask : Option (Fin k → Fin p → ℝ)) (sw : Fin n → ℝ) (W : Fin k → Fin p → ℝ)
    (B : Option (Fin k → ℝ)) :
    (multiLossGrad X Y alpha mask sw W B).1 =
      multiObj X Y sw alpha (B.getD fun _ => 0) (applyMaskM mask W) := by
  simp only [multiLossGrad, multiObj, logProb]
  congr 1
  · rw [div_eq_inv_mul, one_div, ← Finset.sum_neg_distrib]
    congr 1
    refine Finset.sum_congr rfl fun i _ => ?_
    simp only [add_comm ((B.getD fun _ => 0) _)]
    simp only [mul_sub, Finset.sum_sub_distrib, mul_assoc]
    rw [← Finset.mul_sum, ← Finset.mul_sum, ← Finset.sum_mul, hY i]
    ring
  · ring

theorem multi_dir (X : Fin n → Fin p → ℝ) (z : Fin n → Fin k → ℝ) (a : ℝ) (E : Fin k → ℝ)
    (W D M : Fin k → Fin p → ℝ) :
    1 / n * ∑ i, ∑ c, z i c * (E c + ∑ j, X i j * (D c j * M c j)) +
        a * ∑ c, ∑ j, W c j * (D c j * M c j) =
      ∑ c, ∑ j, ((∑ i, z i c * X i j) / n + a * W c j) * M c j * D c j +
        ∑ c, (∑ i, z i c) / n * E c := by
  rw [Finset.sum_comm, Finset.mul_sum, Finset.mul_sum, ← Finset.sum_add_distrib,
    ← Finset.sum_add_distrib]
  refine Finset.sum_congr rfl fun c _ => ?_
  rw [bin_dir X (fun i => z i c) a (E c) (W c) (D c) (M c)]
  simp only [mul_comm (X _ _)]

theorem multi_differentiable [NeZero k] (X : Fin n → Fin p → ℝ) (Y : Fin n → Fin k → ℝ)
    (sw : Fin n → ℝ) (a : ℝ) :
    Differentiable ℝ (fun q : (Fin k → Fin p → ℝ) × (Fin k → ℝ) => multiObj X Y sw a q.2 q.1) := by
  unfold multiObj
  refine Differentiable.fun_add (Differentiable.const_mul (Differentiable.fun_sum fun i _ =>
    Differentiable.const_mul (Differentiable.fun_sub (Differentiable.log (by fun_prop)
      fun q => (sum_exp_pos _).ne') (by fun_prop)) _) _) (by fun_prop)

theorem reshape_ravel (q : Nat) (M : Nat → Nat → ℝ) (c : Nat) {j : Nat} (h : j < q) :
    reshape q (ravel q M) c j = M c j := by
  unfold reshape ravel
  have h1 : (c * q + j) / q = c := by
    rw [mul_comm, Nat.mul_add_div (by omega), Nat.div_eq_of_lt h, add_zero]
  have h2 : (c * q + j) % q = j := by
    rw [mul_comm, Nat.mul_add_mod, Nat.mod_eq_of_lt h]
  rw [h1, h2]

theorem sum_range_mul (k q : Nat) (F : Nat → ℝ) :
    ∑ i ∈ Finset.range (k * q), F i = ∑ c ∈ Finset.range k, ∑ j ∈ Finset.range q, F (c * q + j) := by
  induction k with
  | zero => simp
  | succ k ih => rw [Nat.succ_mul, Finset.sum_range_add, ih, Finset.sum_range_succ]

theorem getD_lt {idx : List Nat} {l : Nat} (h : l < idx.length) : idx.getD l 0 = idx[l] := by
  simp [List.getD, h]

theorem idxOf_getD {idx : List Nat} (hn : idx.Nodup) {l : Nat} (h : l < idx.length) :
    idx.idxOf (idx.getD l 0) = l := by
  rw [getD_lt h]
  exact hn.idxOf_getElem l h

theorem lt_cols {a : PathArgs} {j : Nat} (h : j < a.p) : j < a.cols := by
  unfold PathArgs.cols; omega

theorem reshape_ravel_T (q : Nat) (M : Nat → Nat → ℝ) {c : Nat} (j : Nat) (h : c < q) :
    transpose (reshape q (ravel q (transpose M))) c j = M c j :=
  reshape_ravel q (transpose M) j h

theorem startPoint_masked {a : PathArgs} {m : Nat → Nat → ℝ} (hm : a.mask = some m) {c j : Nat}
    (hj : j < a.p) (h : m c j = 0) : startPoint a c j = 0 := by
  simp [startPoint, hm, hj, h]

theorem sum_label (y : Fin n → Fin 2) : ∑ i, ((y i : ℕ) : ℝ) = count y 1 := by
  unfold count
  rw [Finset.card_filter]
  push_cast
  refine Finset.sum_congr rfl fun i _ => ?_
  rcases Fin.exists_fin_two.1 ⟨y i, rfl⟩ with h | h <;> rw [h] <;> simp

theorem freq_eq (y : Fin n → Fin k) (c : Fin k) : freq y c = count y c / n := by
  unfold freq mean count
  rw [Finset.sum_boole]

theorem sum_count (y : Fin n → Fin k) : ∑ c, count y c = n := by
  unfold count
  rw [← Finset.card_eq_sum_card_fiberwise (fun i _ => Finset.mem_univ _)]
  simp

theorem count_two (y : Fin n → Fin 2) : (count y 0 : ℝ) + count y 1 = n := by
  have := sum_count y
  rw [Fin.sum_univ_two] at this
  exact_mod_cast this

theorem sigmoid_logit {q : ℝ} (h0 : 0 < q) (h1 : q < 1) :
    sigmoid (Real.log (q / (1 - q))) = q := by
  have h2 : 0 < 1 - q := by linarith
  rw [sigmoid_eq, Real.exp_neg, Real.exp_log (by positivity)]
  field_simp
  ring

/-- The clipped frequency of class one. -/
theorem clip_bounds (q : ℝ) : 0 < min (max q epsI) (1 - epsI) ∧ min (max q epsI) (1 - epsI) < 1 := by
  have he : (0 : ℝ) < epsI := by unfold epsI; positivity
  have he1 : epsI < 1 / 2 := by unfold epsI; norm_num
  constructor
  · exact lt_min (lt_max_of_lt_right he) (by linarith)
  · exact min_lt_of_right_lt (by linarith)

theorem binProba_clip (y : Fin n → Fin 2) :
    binProba y = min (max ((count y 1 : ℝ) / n) epsI) (1 - epsI) := by
  have hb := clip_bounds (count y 1 / n)
  unfold binProba binIntercept
  rw [show mean (fun i => ((y i : ℕ) : ℝ)) = count y 1 / n by rw [mean, sum_label]]
  exact sigmoid_logit hb.1 hb.2

theorem binProba_freq [NeZero n] (y : Fin n → Fin 2) (hle : n ≤ 10 ^ 10) (h0 : 0 < count y 0)
    (h1 : 0 < count y 1) : binProba y = count y 1 / n := by
  have hn : (0 : ℝ) < n := by exact_mod_cast Nat.pos_of_ne_zero (NeZero.ne n)
  have hp := binProba_clip y
  have hle' : (n : ℝ) ≤ 10 ^ 10 := by exact_mod_cast hle
  have h0' : (1 : ℝ) ≤ count y 0 := by exact_mod_cast h0
  have h1' : (1 : ℝ) ≤ count y 1 := by exact_mod_cast h1
  have hinv : epsI ≤ 1 / n := by
    unfold epsI
    exact one_div_le_one_div_of_le hn hle'
  have h2 : 1 / (n : ℝ) ≤ count y 1 / n := div_le_div_of_nonneg_right h1' hn.le
  have h3 : (count y 1 : ℝ) / n ≤ 1 - 1 / n := by
    rw [div_le_iff₀ hn, sub_mul, one_mul, one_div, inv_mul_cancel₀ hn.ne']
    have := count_two y
    linarith
  rw [hp, max_eq_left (by linarith), min_eq_left (by linarith)]

theorem freq_nonneg (y : Fin n → Fin k) (c : Fin k) : 0 ≤ freq y c := by
  rw [freq_eq]; positivity

theorem sum_freq [NeZero n] (y : Fin n → Fin k) : ∑ c, freq y c = 1 := by
  have hn : (n : ℝ) ≠ 0 := by exact_mod_cast NeZero.ne n
  simp only [freq_eq]
  rw [← Finset.sum_div]
  have := sum_count y
  have h : ∑ c, (count y c : ℝ) = n := by exact_mod_cast this
  rw [h, div_self hn]

/-- The mass moved to classes that do not occur. -/
theorem adj_facts [NeZero n] (y : Fin n → Fin k) (hk : n + k < 10 ^ 10) :
    (∀ c, 0 < adjFreq y c) ∧ ∑ c, adjFreq y c = 1 ∧
    (∀ c c', adjFreq y c ≤ adjFreq y c' → freq y c ≤ freq y c') ∧
    ((∀ c, 0 < count y c) → ∀ c, adjFreq y c = freq y c) := by
  classical
  have hn : (0 : ℝ) < n := by exact_mod_cast Nat.pos_of_ne_zero (NeZero.ne n)
  have he : (0 : ℝ) < epsI := by unfold epsI; positivity
  set inc := (Finset.univ.filter fun c => freq y c ≠ 0).card with hinc
  have hle : inc ≤ k := by
    have := Finset.card_le_univ (Finset.univ.filter fun c => freq y c ≠ 0)
    simpa using this
  have hexcl : ((Finset.univ.filter fun c => freq y c = 0).card : ℝ) = (k : ℝ) - inc := by
    have := Finset.card_filter_add_card_filter_not (s := (Finset.univ : Finset (Fin k)))
      (fun c => freq y c ≠ 0)
    simp only [not_not, Finset.card_univ, Fintype.card_fin] at this
    have h' : ((Finset.univ.filter fun c => freq y c ≠ 0).card : ℝ) +
      (Finset.univ.filter fun c => freq y c = 0).card = k := by exact_mod_cast this
    rw [hinc]; linarith
  set nm := epsI * ((k : ℝ) - inc) with hnm
  have hnm0 : 0 ≤ nm := mul_nonneg he.le (by
    have : (inc : ℝ) ≤ k := by exact_mod_cast hle
    linarith)
  -- n * eps < 1 - nm
  have hsmall : n * epsI < 1 - nm := by
    have h1 : ((n : ℝ) + k) < 10 ^ 10 := by exact_mod_cast hk
    have h2 : nm ≤ epsI * k := by
      rw [hnm]; refine mul_le_mul_of_nonneg_left ?_ he.le
      have : (0 : ℝ) ≤ inc := by positivity
      linarith
    have h3 : epsI * ((n : ℝ) + k) < 1 := by
      unfold epsI
      rw [one_div, inv_mul_lt_one₀ (by positivity)]
      exact h1
    nlinarith
  have hpos : 0 < 1 - nm := lt_trans (by positivity) hsmall
  have hq : ∀ c, (freq y c * (1 - nm) = 0 ↔ freq y c = 0) := by
    intro c
    rw [mul_eq_zero]
    constructor
    · rintro (h | h)
      · exact h
      · linarith
    · exact .inl
  have hbig : ∀ c, freq y c ≠ 0 → epsI < freq y c * (1 - nm) := by
    intro c hc
    have h1 : (1 : ℝ) ≤ count y c := by
      have : count y c ≠ 0 := by
        intro h0; apply hc; rw [freq_eq, h0]; simp
      exact_mod_cast Nat.one_le_iff_ne_zero.2 this
    have h2 : 1 / (n : ℝ) ≤ freq y c := by
      rw [freq_eq]; exact div_le_div_of_nonneg_right h1 hn.le
    calc epsI = 1 / n * (n * epsI) := by field_simp
      _ < 1 / n * (1 - nm) := by
        exact mul_lt_mul_of_pos_left hsmall (by positivity)
      _ ≤ _ := mul_le_mul_of_nonneg_right h2 hpos.le
  by_cases hlt : inc < k
  · have hadj : ∀ c, adjFreq y c = if freq y c = 0 then epsI else freq y c * (1 - nm) := by
      intro c
      unfold adjFreq
      rw [← hinc, if_pos hlt, ← hnm]
      simp only [hq c]
    refine ⟨?_, ?_, ?_, ?_⟩
    · intro c
      rw [hadj]
      split_ifs with h
      · exact he
      · exact lt_trans he (hbig c h)
    · simp only [hadj]
      rw [Finset.sum_ite, Finset.sum_const, nsmul_eq_mul, hexcl, ← Finset.sum_mul]
      have : ∑ c ∈ Finset.univ.filter (fun c => ¬freq y c = 0), freq y c = 1 := by
        rw [← sum_freq y, Finset.sum_filter_of_ne]
        intro c _ h; exact h
      rw [this]
      rw [hnm]; ring
    · intro c c' h
      rw [hadj, hadj] at h
      split_ifs at h with h1 h2 h2
      · rw [h1, h2]
      · rw [h1]; exact freq_nonneg y c'
      · exact absurd h (not_le.2 (hbig c h1))
      · exact le_of_mul_le_mul_right h hpos
    · intro h
      exfalso
      have : inc = k := by
        rw [hinc, Finset.filter_true_of_mem, Finset.card_univ, Fintype.card_fin]
        intro c _
        rw [freq_eq]
        have := h c
        positivity
      omega
  · have hadj : ∀ c, adjFreq y c = freq y c := by
      intro c
      unfold adjFreq
      rw [← hinc, if_neg hlt]
    have hall : ∀ c, freq y c ≠ 0 := by
      intro c
      have heq : inc = k := by omega
      have : (Finset.univ.filter fun c => freq y c ≠ 0) = Finset.univ := by
        rw [← Finset.card_eq_iff_eq_univ, ← hinc, heq, Fintype.card_fin]
      have hc : c ∈ (Finset.univ.filter fun c => freq y c ≠ 0) := by rw [this]; simp
      simpa using hc
    refine ⟨fun c => ?_, ?_, ?_, fun _ => hadj⟩
    · rw [hadj]; exact lt_of_le_of_ne (freq_nonneg y c) (Ne.symm (hall c))
    · simp only [hadj]; exact sum_freq y
    · intro c c' h; rwa [hadj, hadj] at h

theorem multiProba_eq [NeZero n] [NeZero k] (y : Fin n → Fin k) (hk : n + k < 10 ^ 10) (c : Fin k) :
    multiProba y c = adjFreq y c := by
  obtain ⟨hpos, hsum, -, -⟩ := adj_facts y hk
  unfold multiProba
  rw [softmax_eq]
  unfold multiIntercept
  simp only [Real.exp_sub, Real.exp_log (hpos _)]
  rw [← Finset.sum_div, hsum]
  field_simp

theorem zeroRun_some {multi : Bool} {k seen t : Nat} {xs : List (List ℝ)}
    (h : zeroRun multi k seen xs = some t) :
    ∃ x, xs[t]? = some x ∧ (∀ v ∈ zeroCoefPart multi k x, v = 0) ∧
      (match t with
        | 0 => 1 ≤ seen
        | t' + 1 => ∃ x', xs[t']? = some x' ∧ ∀ v ∈ zeroCoefPart multi k x', v = 0) := by
  induction xs generalizing seen t with
  | nil => cases h
  | cons x xs ih =>
    unfold zeroRun zeroCoef at h
    by_cases hz : ∀ v ∈ zeroCoefPart multi k x, v = 0
    · simp only [if_pos hz] at h
      by_cases hs : seen + 1 > 1
      · simp only [hs, decide_true, if_true, Option.some.injEq] at h
        subst h
        exact ⟨x, rfl, hz, by simp only; omega⟩
      · simp only [hs, decide_false, Bool.false_eq_true, if_false, Option.map_eq_some_iff] at h
        obtain ⟨t', ht', rfl⟩ := h
        obtain ⟨x', hx', hz', hm⟩ := ih ht'
        refine ⟨x', by simpa using hx', hz', ?_⟩
        cases t' with
        | zero => exact ⟨x, rfl, hz⟩
        | succ t'' =>
          obtain ⟨x'', h1, h2⟩ := hm
          exact ⟨x'', by simpa using h1, h2⟩
    · simp only [if_neg hz] at h
      simp only [gt_iff_lt, Nat.not_lt_zero, decide_false, Bool.false_eq_true, if_false,
        Option.map_eq_some_iff] at h
      obtain ⟨t', ht', rfl⟩ := h
      obtain ⟨x', hx', hz', hm⟩ := ih ht'
      refine ⟨x', by simpa using hx', hz', ?_⟩
      cases t' with
      | zero => simp at hm
      | succ t'' =>
        obtain ⟨x'', h1, h2⟩ := hm
        exact ⟨x'', by simpa using h1, h2⟩

/-- Entry `i` is looked at. -/
theorem mem_part {multi : Bool} {k i N : Nat} {x : List ℝ} {v : ℝ} (hv : x[i]? = some v)
    (hlen : x.length = N + (if multi then k else 1)) (hi : i < N) : v ∈ zeroCoefPart multi k x := by
  unfold zeroCoefPart
  cases multi with
  | true =>
    simp only [if_true] at hlen ⊢
    refine List.mem_of_getElem? (i := i) ?_
    rw [List.getElem?_take, if_pos (by omega)]
    exact hv
  | false =>
    simp only [Bool.false_eq_true, if_false] at hlen ⊢
    refine List.mem_of_getElem? (i := i) ?_
    rw [List.getElem?_dropLast, if_pos (by omega)]
    exact hv

theorem allZero_fit (a : PathArgs) (opt : Optimisers) (hl : a.l1 = true)
    (hmask : ∀ m, a.mask = some m → maskSum a m ≠ 0)
    (hz : ∀ x, opt.l1 x = .allZero) (c : Nat) :
    (∀ j, fitCoef a opt c j = 0) ∧ fitIntercept a opt c = 0 := by
  have key : ∀ j, path a opt c j = 0 := by
    intro j
    unfold path
    simp only [hl, hz, and_true, if_true]
    cases hm : a.mask with
    | none => simp only []; split_ifs <;> simp [transpose, reshape]
    | some m =>
      simp only [if_pos (hmask m hm)]
      split_ifs <;> simp [transpose, reshape]
  constructor
  · intro j; unfold fitCoef; split_ifs <;> simp [key]
  · unfold fitIntercept; split_ifs <;> simp [key]

theorem binIntercept_zero [NeZero n] (y : Fin n → Fin 2) :
    binIntercept y = 0 ↔ count y 0 = count y 1 := by
  have hn : (0 : ℝ) < n := by exact_mod_cast Nat.pos_of_ne_zero (NeZero.ne n)
  have he : (0 : ℝ) < epsI := by unfold epsI; positivity
  have he1 : epsI < 1 / 2 := by unfold epsI; norm_num
  have hct := count_two y
  have hmean : mean (fun i => ((y i : ℕ) : ℝ)) = count y 1 / n := by rw [mean, sum_label]
  have hb := clip_bounds (count y 1 / n)
  have h1 : (count y 0 = count y 1) ↔ (count y 1 : ℝ) / n = 1 / 2 := by
    rw [div_eq_iff hn.ne', ← hct]
    constructor
    · intro h; rw [h]; ring
    · intro h
      have : (count y 0 : ℝ) = count y 1 := by linarith
      exact_mod_cast this
  rw [h1]
  unfold binIntercept
  simp only [hmean]
  generalize (count y 1 : ℝ) / n = r at hb ⊢
  set q := min (max r epsI) (1 - epsI) with hq
  have hq1 : 0 < 1 - q := by linarith [hb.2]
  have h2 : Real.log (q / (1 - q)) = 0 ↔ q = 1 / 2 := by
    constructor
    · intro h
      have h3 := Real.exp_log (div_pos hb.1 hq1)
      rw [h, Real.exp_zero, eq_div_iff hq1.ne'] at h3
      linarith
    · intro h
      rw [h]; norm_num
  rw [h2]
  constructor
  · intro h
    rw [hq] at h
    rcases min_choice (max r epsI) (1 - epsI) with h3 | h3 <;> rw [h3] at h
    · rcases max_choice r epsI with h4 | h4 <;> rw [h4] at h
      · exact h
      · linarith
    · linarith
  · intro h
    rw [hq, h, max_eq_left he1.le, min_eq_left (by linarith)]

theorem abs_deriv_le {s : ℝ → ℝ} {d lam : ℝ} (hs : HasDerivAt s d 0)
    (h : ∀ t, s 0 ≤ s t + lam * |t|) : |d| ≤ lam := by
  rw [hasDerivAt_iff_tendsto_slope_zero] at hs
  simp only [zero_add, smul_eq_mul] at hs
  rw [abs_le]
  constructor
  · have h1 := hs.mono_left (nhdsWithin_mono (0 : ℝ) (s := Set.Ioi 0) fun x hx => ne_of_gt hx)
    refine ge_of_tendsto h1 ?_
    filter_upwards [self_mem_nhdsWithin] with t ht
    have ht : 0 < t := ht
    have h2 := h t
    rw [abs_of_pos ht] at h2
    rw [inv_mul_eq_div, le_div_iff₀ ht]
    linarith
  · have h1 := hs.mono_left (nhdsWithin_mono (0 : ℝ) (s := Set.Iio 0) fun x hx => ne_of_lt hx)
    refine le_of_tendsto h1 ?_
    filter_upwards [self_mem_nhdsWithin] with t ht
    have ht : t < 0 := ht
    have h2 := h t
    rw [abs_of_neg ht] at h2
    rw [inv_mul_eq_div, div_le_iff_of_neg ht]
    linarith

theorem expit_neg (x : ℝ) : expit (-x) = 1 - expit x := by
  unfold expit
  rw [neg_neg, Real.exp_neg]
  have := Real.exp_pos x
  field_simp
  ring

/-- Sign and label: the derivative of the loss of one sample. -/
theorem sample_grad (y : Fin 2) (x : ℝ) :
    (expit ((if y = 1 then 1 else -1) * x) - 1) * (if y = 1 then 1 else -1) =
      expit x - ((y : ℕ) : ℝ) := by
  rcases Fin.exists_fin_two.1 ⟨y, rfl⟩ with h | h <;> rw [h]
  · simp [expit_neg]
  · simp

/-- The tangent of `log (1 + exp (-u))`. -/
theorem softplus_tangent (u u' : ℝ) :
    Real.log (1 + Real.exp (-u)) + (expit u - 1) * (u' - u) ≤ Real.log (1 + Real.exp (-u')) := by
  have e := Real.exp_pos (-u)
  set σ := expit u with hσ
  have hσ1 : 0 < σ := by rw [hσ]; unfold expit; positivity
  have hσ2 : 1 - σ = Real.exp (-u) / (1 + Real.exp (-u)) := by
    rw [hσ]; unfold expit; field_simp; ring
  have hσ3 : 0 < 1 - σ := by rw [hσ2]; positivity
  set δ := u' - u
  have h1 : 1 + Real.exp (-u') = (1 + Real.exp (-u)) * (σ + (1 - σ) * Real.exp (-δ)) := by
    have : Real.exp (-u') = Real.exp (-u) * Real.exp (-δ) := by
      rw [← Real.exp_add]; congr 1; simp only [δ]; ring
    rw [this, hσ2, hσ]
    unfold expit
    field_simp
  have h2 : Real.exp (-((1 - σ) * δ)) ≤ σ + (1 - σ) * Real.exp (-δ) := by
    set m := (1 - σ) * δ with hm
    have h3 : 1 ≤ σ * Real.exp m + (1 - σ) * Real.exp (-δ + m) := by
      have a1 := Real.add_one_le_exp m
      have a2 := Real.add_one_le_exp (-δ + m)
      nlinarith
    rw [Real.exp_add] at h3
    have h4 : Real.exp (-m) * (σ * Real.exp m + (1 - σ) * (Real.exp (-δ) * Real.exp m)) =
        σ + (1 - σ) * Real.exp (-δ) := by
      rw [Real.exp_neg]
      have := (Real.exp_pos m).ne'
      field_simp
    rw [← h4]
    nlinarith [Real.exp_pos (-m)]
  rw [h1, Real.log_mul (by positivity) (by positivity)]
  have h5 := Real.log_le_log (Real.exp_pos _) h2
  rw [Real.log_exp] at h5
  linarith

/-- The gradient of the average loss at zero coefficients and the best intercept, feature by
    feature. -/
noncomputable def binCrit (X : Fin n → Fin p → ℝ) (y : Fin n → Fin 2) (j : Fin p) : ℝ :=
  (∑ i, X i j * ((count y 1 : ℝ) / n - ((y i : ℕ) : ℝ))) / n

theorem expit_logit {q : ℝ} (h0 : 0 < q) (h1 : q < 1) : expit (Real.log (q / (1 - q))) = q := by
  rw [expit, ← sigmoid_eq]
  exact sigmoid_logit h0 h1

theorem binL1_line_zero (X : Fin n → Fin p → ℝ) (y : Fin n → Fin 2) (b e : ℝ) (d : Fin p → ℝ) :
    HasDerivAt (fun t : ℝ => binObj X (fun i => if y i = 1 then 1 else -1) (fun _ => 1) 0 (b + t * e)
        (fun j => t * d j))
      (1 / n * ∑ i, (expit b - ((y i : ℕ) : ℝ)) * (e + ∑ j, X i j * d j)) 0 := by
  have h := bin_line X (fun i => if y i = 1 then 1 else -1) (fun _ => 1) 0 b e (fun _ => 0) d
  simp only [mul_zero, Finset.sum_const_zero, add_zero, zero_add, sample_grad, one_mul, zero_mul]
    at h
  exact h

theorem bin_zero_optimal [NeZero n] (X : Fin n → Fin p → ℝ) (y : Fin n → Fin 2)
    (h0 : 0 < count y 0) (h1 : 0 < count y 1) {lam : ℝ} :
    ZeroOptimal (binL1 X y lam) ↔ ∀ j, |binCrit X y j| ≤ lam := by
  have hn : (0 : ℝ) < n := by exact_mod_cast Nat.pos_of_ne_zero (NeZero.ne n)
  have hct := count_two y
  have h0' : (0 : ℝ) < count y 0 := by exact_mod_cast h0
  have h1' : (0 : ℝ) < count y 1 := by exact_mod_cast h1
  constructor
  · rintro ⟨b0, h⟩ j
    -- the intercept is the logit of the frequency
    have hb : expit b0 = count y 1 / n := by
      have hd := binL1_line_zero X y b0 1 (fun _ => 0)
      have h2 : |1 / (n : ℝ) * ∑ i, (expit b0 - ((y i : ℕ) : ℝ)) *
          (1 + ∑ j, X i j * (0 : ℝ))| ≤ 0 := by
        refine abs_deriv_le hd fun t => ?_
        have := h (b0 + t * 1) (fun j => t * 0)
        simp only [binL1, mul_zero, abs_zero, Finset.sum_const_zero, add_zero] at this
        simp only [zero_mul, add_zero, mul_zero]
        exact this
      simp only [mul_zero, Finset.sum_const_zero, add_zero, mul_one, Finset.sum_sub_distrib,
        sum_label, Finset.sum_const, Finset.card_univ, Fintype.card_fin, nsmul_eq_mul] at h2
      have h3 := abs_nonpos_iff.1 h2
      rw [mul_eq_zero] at h3
      rcases h3 with h3 | h3
      · exact absurd h3 (by positivity)
      · rw [eq_div_iff hn.ne']; linarith
    have hd := binL1_line_zero X y b0 0 (Pi.single j 1)
    have h2 := abs_deriv_le (lam := lam) hd fun t => by
      have := h (b0 + t * 0) (fun k => t * (Pi.single j 1 : Fin p → ℝ) k)
      have e1 : ∑ k, |t * (Pi.single j 1 : Fin p → ℝ) k| = |t| := by
        rw [Finset.sum_eq_single j]
        · simp
        · intro k _ hk; simp [hk]
        · simp
      simp only [binL1, abs_zero, Finset.sum_const_zero, mul_zero, add_zero, e1] at this
      simp only [mul_zero, zero_mul, add_zero]
      exact this
    have e2 : 1 / (n : ℝ) * ∑ i, (expit b0 - ((y i : ℕ) : ℝ)) *
        (0 + ∑ k, X i k * (Pi.single j 1 : Fin p → ℝ) k) = binCrit X y j := by
      unfold binCrit
      rw [one_div, inv_mul_eq_div]
      congr 1
      refine Finset.sum_congr rfl fun i _ => ?_
      rw [Verif.Grid.sum_single_mul (X i) j 1, hb]
      ring
    rwa [e2] at h2
  · intro h
    set q := (count y 1 : ℝ) / n with hq
    have hq0 : 0 < q := by positivity
    have hq1 : q < 1 := by rw [hq, div_lt_one hn]; linarith
    refine ⟨Real.log (q / (1 - q)), fun b0' w => ?_⟩
    set b0 := Real.log (q / (1 - q)) with hb0
    have he : expit b0 = q := expit_logit hq0 hq1
    have htan : ∀ i, Real.log (1 + Real.exp (-((if y i = 1 then 1 else -1) * b0))) +
        (q - ((y i : ℕ) : ℝ)) * (b0' - b0 + ∑ j, X i j * w j) ≤
        Real.log (1 + Real.exp (-((if y i = 1 then 1 else -1) * (b0' + ∑ j, X i j * w j)))) := by
      intro i
      have h2 := softplus_tangent ((if y i = 1 then 1 else -1) * b0)
        ((if y i = 1 then 1 else -1) * (b0' + ∑ j, X i j * w j))
      have h3 := sample_grad (y i) b0
      rw [he] at h3
      rw [← h3]
      calc _ = _ := by ring
        _ ≤ _ := h2
    have hsum := Finset.sum_le_sum fun i (_ : i ∈ Finset.univ) => htan i
    rw [Finset.sum_add_distrib] at hsum
    have h4 : ∑ i, (q - ((y i : ℕ) : ℝ)) * (b0' - b0 + ∑ j, X i j * w j) =
        n * ∑ j, binCrit X y j * w j := by
      simp only [mul_add, Finset.sum_add_distrib]
      rw [Verif.Grid.sum_cross, ← Finset.sum_mul, Finset.sum_sub_distrib, sum_label]
      simp only [Finset.sum_const, Finset.card_univ, Fintype.card_fin, nsmul_eq_mul]
      rw [hq, mul_div_cancel₀ _ hn.ne', sub_self, zero_mul, zero_add, Finset.mul_sum]
      refine Finset.sum_congr rfl fun j _ => ?_
      unfold binCrit
      field_simp
    have h5 : -(lam * ∑ j, |w j|) ≤ ∑ j, binCrit X y j * w j := by
      rw [Finset.mul_sum, ← Finset.sum_neg_distrib]
      refine Finset.sum_le_sum fun j _ => ?_
      have h6 := neg_abs_le (binCrit X y j * w j)
      rw [abs_mul] at h6
      have := mul_le_mul_of_nonneg_right (h j) (abs_nonneg (w j))
      linarith
    rw [h4] at hsum
    have h7 := mul_le_mul_of_nonneg_left hsum (by positivity : (0 : ℝ) ≤ 1 / n)
    rw [mul_add, ← mul_assoc, one_div, inv_mul_cancel₀ hn.ne', one_mul] at h7
    simp only [binL1, binObj, mul_zero, Finset.sum_const_zero, add_zero, abs_zero, zero_div,
      zero_mul, one_mul, one_div]
    linarith

theorem absMax_spec {l : List ℝ} {m : ℝ} (h : absMax l = .ok m) :
    (∀ v ∈ l, |v| ≤ m) ∧ ∃ v ∈ l, |v| = m := by
  cases l with
  | nil => cases h
  | cons x xs =>
    simp only [absMax, Except.ok.injEq] at h
    have key : ∀ (xs : List ℝ) (a : ℝ), (∀ v ∈ xs, |v| ≤ xs.foldl (fun m v => max m |v|) a) ∧
        a ≤ xs.foldl (fun m v => max m |v|) a ∧
        (xs.foldl (fun m v => max m |v|) a = a ∨
          ∃ v ∈ xs, |v| = xs.foldl (fun m v => max m |v|) a) := by
      intro xs
      induction xs with
      | nil => intro a; simp
      | cons b bs ih =>
        intro a
        obtain ⟨h1, h2, h3⟩ := ih (max a |b|)
        simp only [List.foldl_cons]
        refine ⟨?_, (le_max_left _ _).trans h2, ?_⟩
        · intro v hv
          rcases List.mem_cons.1 hv with rfl | hv
          · exact (le_max_right _ _).trans h2
          · exact h1 v hv
        · rcases h3 with h3 | ⟨v, hv, h3⟩
          · rw [h3]
            rcases max_choice a |b| with h4 | h4
            · exact .inl h4
            · exact .inr ⟨b, by simp, h4.symm⟩
          · exact .inr ⟨v, List.mem_cons_of_mem _ hv, h3⟩
    obtain ⟨h1, h2, h3⟩ := key xs |x|
    rw [h] at h1 h2 h3
    refine ⟨fun v hv => ?_, ?_⟩
    · rcases List.mem_cons.1 hv with rfl | hv
      · exact h2
      · exact h1 v hv
    · rcases h3 with h3 | ⟨v, hv, h3⟩
      · exact ⟨x, by simp, h3.symm⟩
      · exact ⟨v, List.mem_cons_of_mem _ hv, h3⟩

theorem absMax_ok {l : List ℝ} (h : l ≠ []) : ∃ m, absMax l = .ok m := by
  cases l with
  | nil => exact absurd rfl h
  | cons x xs => exact ⟨_, rfl⟩

/-- What `get_reg_params` takes for the gradient in a binary problem with centred features. -/
theorem binGrad0_eq [NeZero n] (X : Fin n → Fin p → ℝ) (hX : ∀ j, ∑ i, X i j = 0)
    (y : Fin n → Fin 2) (hle : n ≤ 10 ^ 10) (h0 : 0 < count y 0) (h1 : 0 < count y 1) :
    (binGrad0 true X y).dropLast =
      List.ofFn fun j => (1 - (count y 1 : ℝ) / n) * binCrit X y j := by
  have hp := binProba_freq y hle h0 h1
  have he : expit (binIntercept y) = count y 1 / n := by
    rw [expit, ← sigmoid_eq]; exact hp
  have hexp : ∀ i, (expit (((y i : ℕ) : ℝ) * binIntercept y) - 1) * ((y i : ℕ) : ℝ) =
      ((count y 1 : ℝ) / n - 1) * ((y i : ℕ) : ℝ) := by
    intro i
    rcases Fin.exists_fin_two.1 ⟨y i, rfl⟩ with h | h <;> rw [h]
    · simp
    · simp [he]
  unfold binGrad0
  simp only [if_true, binLossGrad, applyMask, Option.getD_some, mul_zero, Finset.sum_const_zero,
    zero_add, add_zero, one_mul, hexp, Option.map_some, Option.toList_some, List.dropLast_concat]
  congr 1
  funext j
  unfold binCrit
  simp only [mul_sub, Finset.sum_sub_distrib, ← Finset.sum_mul, hX j, zero_mul, zero_sub]
  have : ∑ i, X i j * (((count y 1 : ℝ) / n - 1) * ((y i : ℕ) : ℝ)) =
      ((count y 1 : ℝ) / n - 1) * ∑ i, X i j * ((y i : ℕ) : ℝ) := by
    rw [Finset.mul_sum]; exact Finset.sum_congr rfl fun i _ => by ring
  rw [this]
  ring

/-- The grid: increasing, from `1/m` to `1/(m eps)`. -/
theorem cs_layout {m eps : ℝ} (hm : 0 < m) (he : 0 < eps) (he1 : eps < 1) {num : Nat}
    (hn : 2 ≤ num) :
    (Grid.logisticCs m eps num).length = num ∧ (Grid.logisticCs m eps num).Pairwise (· < ·) ∧
      (Grid.logisticCs m eps num).head? = some (1 / m) ∧
      (Grid.logisticCs m eps num).getLast? = some (1 / (m * eps)) ∧
      ∀ C ∈ Grid.logisticCs m eps num, 1 / m ≤ C := by
  have hl10 := Verif.Grid.log_ten_pos
  have hneg : Grid.log10 eps < 0 := by
    unfold Grid.log10; exact div_neg_of_neg_of_pos (Real.log_neg he he1) hl10
  have e1 : (10 : ℝ) ^ (-Grid.log10 m) = 1 / m := by
    rw [Real.rpow_neg (by norm_num), Verif.Grid.ten_pow_log10 hm, one_div]
  have e2 : (10 : ℝ) ^ (-Grid.log10 m - Grid.log10 eps) = 1 / (m * eps) := by
    rw [Real.rpow_sub (by norm_num), e1, Verif.Grid.ten_pow_log10 he]
    field_simp
  unfold Grid.logisticCs
  have hpw := Verif.Grid.logspace_lt (num := num) (a := -Grid.log10 m)
    (b := -Grid.log10 m - Grid.log10 eps) (by linarith)
  have hhead := Verif.Grid.logspace_head (num := num) (a := -Grid.log10 m)
    (b := -Grid.log10 m - Grid.log10 eps) (by omega)
  rw [e1] at hhead
  refine ⟨Verif.Grid.logspace_length _ _ _, hpw, hhead, ?_, ?_⟩
  · rw [Verif.Grid.logspace_last hn, e2]
  · intro C hC
    cases hh : Grid.logspace (-Grid.log10 m) (-Grid.log10 m - Grid.log10 eps) num with
    | nil => rw [hh] at hC; cases hC
    | cons a as =>
      rw [hh] at hhead hC hpw
      simp only [List.head?_cons, Option.some.injEq] at hhead
      rcases List.mem_cons.1 hC with rfl | hC
      · exact hhead.ge
      · rw [← hhead]; exact ((List.pairwise_cons.1 hpw).1 C hC).le

/-- The largest entry of `binCrit`, in the two forms needed. -/
theorem binary_alphaMax [NeZero n] (X : Fin n → Fin (p + 1) → ℝ) (hX : ∀ j, ∑ i, X i j = 0)
    (y : Fin n → Fin 2) (hle : n ≤ 10 ^ 10) (h0 : 0 < count y 0) (h1 : 0 < count y 1) :
    ∃ j, absMax (binGrad0 true X y).dropLast =
        .ok ((1 - (count y 1 : ℝ) / n) * |binCrit X y j|) ∧
      ∀ j', |binCrit X y j'| ≤ |binCrit X y j| := by
  have hn : (0 : ℝ) < n := by exact_mod_cast Nat.pos_of_ne_zero (NeZero.ne n)
  have hf : 0 < 1 - (count y 1 : ℝ) / n := by
    have := count_two y
    have h0' : (0 : ℝ) < count y 0 := by exact_mod_cast h0
    rw [sub_pos, div_lt_one hn]; linarith
  rw [binGrad0_eq X hX y hle h0 h1]
  obtain ⟨m, hm⟩ := absMax_ok (l := List.ofFn fun j => (1 - (count y 1 : ℝ) / n) * binCrit X y j)
    (by simp)
  obtain ⟨ha, v, hv, hvm⟩ := absMax_spec hm
  obtain ⟨j, rfl⟩ := (List.mem_ofFn' _ _).1 hv
  refine ⟨j, ?_, fun j' => ?_⟩
  · rw [hm, ← hvm, abs_mul, abs_of_pos hf]
  · have := ha _ ((List.mem_ofFn' _ _).2 ⟨j', rfl⟩)
    rw [← hvm, abs_mul, abs_mul, abs_of_pos hf] at this
    exact le_of_mul_le_mul_left this hf

/-- The tangent of log-sum-exp. -/
theorem lse_tangent [NeZero k] (u u' : Fin k → ℝ) :
    Real.log (∑ c, Real.exp (u c)) + ∑ c, Real.exp (logProb u c) * (u' c - u c) ≤
      Real.log (∑ c, Real.exp (u' c)) := by
  have hS : 0 < ∑ c, Real.exp (u c) := sum_exp_pos _
  have hq : ∀ c, Real.exp (logProb u c) = Real.exp (u c) / ∑ c, Real.exp (u c) := by
    intro c; unfold logProb; rw [Real.exp_sub, Real.exp_log hS]
  have hq1 : ∑ c, Real.exp (logProb u c) = 1 := by
    simp only [hq]; rw [← Finset.sum_div, div_self hS.ne']
  set m := ∑ c, Real.exp (logProb u c) * (u' c - u c) with hm
  have h1 : ∑ c, Real.exp (u' c) =
      (∑ c, Real.exp (u c)) * ∑ c, Real.exp (logProb u c) * Real.exp (u' c - u c) := by
    rw [Finset.mul_sum]
    refine Finset.sum_congr rfl fun c _ => ?_
    rw [hq, Real.exp_sub]
    have := (Real.exp_pos (u c)).ne'
    field_simp
  have h2 : Real.exp m ≤ ∑ c, Real.exp (logProb u c) * Real.exp (u' c - u c) := by
    have h3 : 1 ≤ ∑ c, Real.exp (logProb u c) * Real.exp (u' c - u c - m) := by
      calc (1 : ℝ) = ∑ c, Real.exp (logProb u c) * (u' c - u c - m + 1) := by
            simp only [mul_add, mul_sub, Finset.sum_add_distrib, Finset.sum_sub_distrib,
              ← Finset.sum_mul, hq1]
            rw [hm]
            simp only [mul_sub, Finset.sum_sub_distrib]
            ring
        _ ≤ _ := Finset.sum_le_sum fun c _ =>
            mul_le_mul_of_nonneg_left (Real.add_one_le_exp _) (Real.exp_pos _).le
    have h4 : Real.exp m * ∑ c, Real.exp (logProb u c) * Real.exp (u' c - u c - m) =
        ∑ c, Real.exp (logProb u c) * Real.exp (u' c - u c) := by
      rw [Finset.mul_sum]
      refine Finset.sum_congr rfl fun c _ => ?_
      rw [Real.exp_sub (u' c - u c) m]
      have := (Real.exp_pos m).ne'
      field_simp
    rw [← h4]
    nlinarith [Real.exp_pos m]
  have hpos : 0 < ∑ c, Real.exp (logProb u c) * Real.exp (u' c - u c) :=
    lt_of_lt_of_le (Real.exp_pos m) h2
  rw [h1, Real.log_mul hS.ne' hpos.ne']
  have h5 := Real.log_le_log (Real.exp_pos _) h2
  rw [Real.log_exp] at h5
  linarith

/-- The gradient of the average multinomial loss at zero coefficients and the best intercepts. -/
noncomputable def multiCrit (X : Fin n → Fin p → ℝ) (y : Fin n → Fin k) (c : Fin k) (j : Fin p) : ℝ :=
  (∑ i, ((count y c : ℝ) / n - (if y i = c then 1 else 0)) * X i j) / n

theorem sum_ind (y : Fin n → Fin k) (c : Fin k) :
    ∑ i, (if y i = c then (1 : ℝ) else 0) = count y c := by
  unfold count; simp

theorem multi_zero_optimal [NeZero n] [NeZero k] (X : Fin n → Fin p → ℝ) (y : Fin n → Fin k)
    (hall : ∀ c, 0 < count y c) {lam : ℝ} :
    ZeroOptimalM (multiL1 X y lam) ↔ ∀ c j, |multiCrit X y c j| ≤ lam := by
  have hn : (0 : ℝ) < n := by exact_mod_cast Nat.pos_of_ne_zero (NeZero.ne n)
  constructor
  · rintro ⟨B, h⟩
    have line : ∀ (E : Fin k → ℝ) (D : Fin k → Fin p → ℝ), 
        |1 / (n : ℝ) * ∑ i, ∑ c, (Real.exp (logProb B c) - (if y i = c then 1 else 0)) *
          (E c + ∑ j, X i j * D c j)| ≤ lam * ∑ c, ∑ j, |D c j| := by
      intro E D
      have hd := multi_line X (fun i c => if y i = c then 1 else 0) (fun _ => 1) 0 B E
        (fun _ _ => 0) D
      simp only [mul_zero, Finset.sum_const_zero, add_zero, zero_add, one_mul, zero_mul] at hd
      refine abs_deriv_le hd fun t => ?_
      have := h (fun c => B c + t * E c) (fun c j => t * D c j)
      simp only [multiL1, abs_zero, Finset.sum_const_zero, mul_zero, add_zero, abs_mul,
        ← Finset.mul_sum] at this
      simp only [zero_mul, add_zero]
      calc _ ≤ _ := this
        _ = _ := by ring
    -- the intercepts reproduce the frequencies
    have hB : ∀ c, Real.exp (logProb B c) = count y c / n := by
      intro c
      have h2 := line (Pi.single c 1) (fun _ _ => 0)
      simp only [mul_zero, Finset.sum_const_zero, add_zero, abs_zero] at h2
      have h3 := abs_nonpos_iff.1 h2
      have h4 : ∀ i, ∑ c', (Real.exp (logProb B c') - (if y i = c' then 1 else 0)) *
          (Pi.single c 1 : Fin k → ℝ) c' =
          Real.exp (logProb B c) - (if y i = c then 1 else 0) := by
        intro i
        rw [Verif.Grid.sum_single_mul (fun c' => Real.exp (logProb B c') -
          (if y i = c' then (1 : ℝ) else 0)) c 1, mul_one]
      simp only [h4, Finset.sum_sub_distrib, sum_ind, Finset.sum_const, Finset.card_univ,
        Fintype.card_fin, nsmul_eq_mul] at h3
      rw [mul_eq_zero] at h3
      rcases h3 with h3 | h3
      · exact absurd h3 (by positivity)
      · rw [eq_div_iff hn.ne']; linarith
    intro c j
    have h2 := line (fun _ => 0) (Pi.single c (Pi.single j 1))
    have e1 : ∑ c', ∑ j', |(Pi.single c (Pi.single j 1) : Fin k → Fin p → ℝ) c' j'| = 1 := by
      rw [Finset.sum_eq_single c, Finset.sum_eq_single j]
      · simp
      · intro b _ hb; simp [hb]
      · simp
      · intro b _ hb; simp [hb]
      · simp
    rw [e1, mul_one] at h2
    have e2 : 1 / (n : ℝ) * ∑ i, ∑ c', (Real.exp (logProb B c') - (if y i = c' then 1 else 0)) *
        (0 + ∑ j', X i j' * (Pi.single c (Pi.single j 1) : Fin k → Fin p → ℝ) c' j') =
        multiCrit X y c j := by
      unfold multiCrit
      rw [one_div, inv_mul_eq_div]
      congr 1
      refine Finset.sum_congr rfl fun i _ => ?_
      rw [Finset.sum_eq_single c]
      · rw [Pi.single_eq_same, Verif.Grid.sum_single_mul (X i) j 1, hB]; ring
      · intro b _ hb; simp [hb]
      · simp
    rwa [e2] at h2
  · intro h
    set B : Fin k → ℝ := fun c => Real.log (count y c / n) with hBdef
    have hfpos : ∀ c, 0 < (count y c : ℝ) / n := fun c => by
      have : (0 : ℝ) < count y c := by exact_mod_cast hall c
      positivity
    have hsum1 : ∑ c, (count y c : ℝ) / n = 1 := by
      rw [← Finset.sum_div]
      have : ∑ c, (count y c : ℝ) = n := by exact_mod_cast sum_count y
      rw [this, div_self hn.ne']
    have hB : ∀ c, Real.exp (logProb B c) = count y c / n := by
      intro c
      unfold logProb
      simp only [hBdef, Real.exp_log (hfpos _), hsum1, Real.log_one, sub_zero]
    refine ⟨B, fun B' W => ?_⟩
    have htan : ∀ i, Real.log (∑ c, Real.exp (B c)) - ∑ c, (if y i = c then 1 else 0) * B c +
        ∑ c, ((count y c : ℝ) / n - (if y i = c then 1 else 0)) *
          (B' c - B c + ∑ j, X i j * W c j) ≤
        Real.log (∑ c, Real.exp (B' c + ∑ j, X i j * W c j)) -
          ∑ c, (if y i = c then 1 else 0) * (B' c + ∑ j, X i j * W c j) := by
      intro i
      have h2 := lse_tangent B (fun c => B' c + ∑ j, X i j * W c j)
      simp only [hB] at h2
      have h3 : ∑ c, ((count y c : ℝ) / n - (if y i = c then 1 else 0)) *
          (B' c - B c + ∑ j, X i j * W c j) =
          ∑ c, (count y c : ℝ) / n * (B' c + ∑ j, X i j * W c j - B c) -
          (∑ c, (if y i = c then 1 else 0) * (B' c + ∑ j, X i j * W c j) -
            ∑ c, (if y i = c then 1 else 0) * B c) := by
        rw [← Finset.sum_sub_distrib, ← Finset.sum_sub_distrib]
        exact Finset.sum_congr rfl fun c _ => by ring
      linarith
    have hsum := Finset.sum_le_sum fun i (_ : i ∈ Finset.univ) => htan i
    rw [Finset.sum_add_distrib] at hsum
    have h4 : ∑ i, ∑ c, ((count y c : ℝ) / n - (if y i = c then 1 else 0)) *
        (B' c - B c + ∑ j, X i j * W c j) = n * ∑ c, ∑ j, multiCrit X y c j * W c j := by
      rw [Finset.sum_comm, Finset.mul_sum]
      refine Finset.sum_congr rfl fun c _ => ?_
      simp only [mul_add, Finset.sum_add_distrib]
      rw [Verif.Grid.sum_cross, ← Finset.sum_mul, Finset.sum_sub_distrib, sum_ind]
      simp only [Finset.sum_const, Finset.card_univ, Fintype.card_fin, nsmul_eq_mul]
      rw [mul_div_cancel₀ _ hn.ne', sub_self, zero_mul, zero_add, Finset.mul_sum]
      refine Finset.sum_congr rfl fun j _ => ?_
      unfold multiCrit
      simp only [mul_comm (X _ j)]
      field_simp
    have h5 : -(lam * ∑ c, ∑ j, |W c j|) ≤ ∑ c, ∑ j, multiCrit X y c j * W c j := by
      simp only [Finset.mul_sum, ← Finset.sum_neg_distrib]
      refine Finset.sum_le_sum fun c _ => Finset.sum_le_sum fun j _ => ?_
      have h6 := neg_abs_le (multiCrit X y c j * W c j)
      rw [abs_mul] at h6
      have := mul_le_mul_of_nonneg_right (h c j) (abs_nonneg (W c j))
      linarith
    rw [h4] at hsum
    have h7 := mul_le_mul_of_nonneg_left hsum (by positivity : (0 : ℝ) ≤ 1 / n)
    rw [mul_add, ← mul_assoc, one_div, inv_mul_cancel₀ hn.ne', one_mul] at h7
    simp only [multiL1, multiObj, mul_zero, Finset.sum_const_zero, add_zero, abs_zero, zero_div,
      zero_mul, one_mul, one_div]
    linarith

/-- The entries `get_reg_params` looks at: the gradient of the coefficients, and zeros. -/
theorem multiGrad0_mem [NeZero n] (X : Fin n → Fin p → ℝ) (y : Fin n → Fin (k + 1))
    (hk : n + (k + 1) < 10 ^ 10) (hall : ∀ c, 0 < count y c) :
    (∀ c j, multiCrit X y c j ∈ (multiGrad0 true X y).dropLast) ∧
      ∀ v ∈ (multiGrad0 true X y).dropLast, v = 0 ∨ ∃ c j, v = multiCrit X y c j := by
  have hn : (0 : ℝ) < n := by exact_mod_cast Nat.pos_of_ne_zero (NeZero.ne n)
  have hp : ∀ c, Real.exp (logProb (multiIntercept y) c) = count y c / n := by
    intro c
    have hpc : multiProba y c = count y c / n := by
      rw [multiProba_eq y hk, (adj_facts y hk).2.2.2 hall c, freq_eq]
    rw [← hpc]
    unfold multiProba logProb
    rw [softmax_eq, Real.exp_sub, Real.exp_log (sum_exp_pos _)]
  have hl : multiGrad0 true X y = (List.finRange (k + 1)).flatMap fun c =>
      List.ofFn (multiCrit X y c) ++ [0] := by
    unfold multiGrad0
    simp only [if_true, multiLossGrad, applyMaskM, Option.getD_some, mul_zero,
      Finset.sum_const_zero, zero_add, add_zero, one_mul, Option.map_some, Option.toList_some,
      oneHot, hp, Finset.sum_sub_distrib, sum_ind, Finset.sum_const, Finset.card_univ,
      Fintype.card_fin, nsmul_eq_mul]
    congr 1
    funext c
    congr 2
    rw [mul_div_cancel₀ _ hn.ne', sub_self, zero_div]
  rw [hl, List.finRange_succ_last, List.flatMap_append]
  simp only [List.flatMap_cons, List.flatMap_nil, List.append_nil]
  rw [← List.append_assoc, List.dropLast_concat]
  constructor
  · intro c j
    rw [List.mem_append]
    refine Fin.lastCases (motive := fun c => multiCrit X y c j ∈ _ ∨ multiCrit X y c j ∈ _) ?_ ?_ c
    · exact .inr ((List.mem_ofFn' _ _).2 ⟨j, rfl⟩)
    · intro c'
      refine .inl (List.mem_flatMap.2 ⟨c'.castSucc, by simp, ?_⟩)
      exact List.mem_append_left _ ((List.mem_ofFn' _ _).2 ⟨j, rfl⟩)
  · intro v hv
    rw [List.mem_append] at hv
    rcases hv with hv | hv
    · obtain ⟨c, -, hv⟩ := List.mem_flatMap.1 hv
      rcases List.mem_append.1 hv with hv | hv
      · obtain ⟨j, rfl⟩ := (List.mem_ofFn' _ _).1 hv
        exact .inr ⟨c, j, rfl⟩
      · exact .inl (by simpa using hv)
    · obtain ⟨j, rfl⟩ := (List.mem_ofFn' _ _).1 hv
      exact .inr ⟨_, j, rfl⟩

/-- Gradient of the data term at zero coefficients without an intercept. -/
theorem no_intercept_necessary [NeZero n] (X : Fin n → Fin p → ℝ) (y : Fin n → Fin 2) {lam : ℝ}
    (h : ∀ w, binL1 X y lam 0 (fun _ => 0) ≤ binL1 X y lam 0 w) (j : Fin p) :
    |(∑ i, X i j * (1 / 2 - ((y i : ℕ) : ℝ))) / n| ≤ lam := by
  have hd := binL1_line_zero X y 0 0 (Pi.single j 1)
  have h2 := abs_deriv_le (lam := lam) hd fun t => by
    have := h (fun k => t * (Pi.single j 1 : Fin p → ℝ) k)
    have e1 : ∑ k, |t * (Pi.single j 1 : Fin p → ℝ) k| = |t| := by
      rw [Finset.sum_eq_single j]
      · simp
      · intro k _ hk; simp [hk]
      · simp
    simp only [binL1, abs_zero, Finset.sum_const_zero, mul_zero, add_zero, e1] at this
    simp only [mul_zero, zero_mul, add_zero]
    exact this
  have e2 : 1 / (n : ℝ) * ∑ i, (expit 0 - ((y i : ℕ) : ℝ)) *
      (0 + ∑ k, X i k * (Pi.single j 1 : Fin p → ℝ) k) =
      (∑ i, X i j * (1 / 2 - ((y i : ℕ) : ℝ))) / n := by
    rw [one_div, inv_mul_eq_div]
    congr 1
    refine Finset.sum_congr rfl fun i _ => ?_
    have : expit 0 = 1 / 2 := by simp [expit]; norm_num
    rw [Verif.Grid.sum_single_mul (X i) j 1, this]
    ring
  rwa [e2] at h2

end Verif.Logistic
