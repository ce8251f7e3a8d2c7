import Mathlib.Data.Int.Log
import Mathlib.Algebra.Order.Floor.Semifield
import Mathlib.Tactic.Linarith
import Mathlib.Tactic.NormNum
import Mathlib.Tactic.Positivity
import Mathlib.Tactic.FieldSimp
import Mathlib.Tactic.Ring
import Verif.Model.SplitSize
import Verif.Spec.SplitSize
/-! Lemmas on rounding to nearest. -/
namespace Verif.SplitSize
open Verif.Spec.SplitSize

theorem rep_scale {y : ℚ} (h : Rep y) {k : ℤ} (hk : (2 : ℚ) ^ k ≤ |y|) : ∃ N : ℤ, y = N * 2 ^ (k - 52) := by
  obtain ⟨m, e, hm, rfl⟩ := h
  have he : k - 52 ≤ e := by
    by_contra hc
    have h1 : |(m : ℚ) * 2 ^ e| < 2 ^ (53 : ℤ) * 2 ^ e := by
      rw [abs_mul, abs_of_pos (zpow_pos (by norm_num : (0 : ℚ) < 2) e)]
      refine mul_lt_mul_of_pos_right ?_ (zpow_pos (by norm_num) e)
      have : ((|m| : ℤ) : ℚ) < ((2 ^ 53 : ℤ) : ℚ) := Int.cast_lt.2 hm
      rw [Int.cast_abs] at this
      refine this.trans_le (le_of_eq ?_)
      norm_num
    rw [← zpow_add₀ (by norm_num : (2 : ℚ) ≠ 0)] at h1
    have h2 : (2 : ℚ) ^ (53 + e) ≤ 2 ^ k := zpow_le_zpow_right₀ (by norm_num) (by omega)
    linarith
  obtain ⟨d, hd⟩ := Int.eq_ofNat_of_zero_le (sub_nonneg.2 he)
  refine ⟨m * 2 ^ d, ?_⟩
  rw [show e = (d : ℤ) + (k - 52) by omega, zpow_add₀ (by norm_num)]
  push_cast
  rw [zpow_natCast]
  ring

theorem rep_int {k : ℤ} (h : |k| ≤ 2 ^ 53) : Rep (k : ℚ) := by
  rcases lt_or_eq_of_le h with h | h
  · exact ⟨k, 0, h, by simp⟩
  · rcases abs_eq (by norm_num : (0 : ℤ) ≤ 2 ^ 53) |>.1 h with h | h
    · exact ⟨2 ^ 52, 1, by norm_num, by rw [h]; norm_num⟩
    · exact ⟨- 2 ^ 52, 1, by norm_num, by rw [h]; norm_num⟩

theorem rep_mul_zpow {y : ℚ} (h : Rep y) (k : ℤ) : Rep (y * 2 ^ k) := by
  obtain ⟨m, e, hm, rfl⟩ := h
  exact ⟨m, e + k, hm, by rw [zpow_add₀ (by norm_num), mul_assoc]⟩

theorem rep_zero : Rep 0 := ⟨0, 0, by norm_num, by simp⟩

/-- The nearest multiple of the unit in the last place. -/
def near53 (x : ℚ) : ℚ := round (x / 2 ^ (Int.log 2 |x| - 52)) * 2 ^ (Int.log 2 |x| - 52)

theorem near53_rep (x : ℚ) : Rep (near53 x) := by
  refine rep_mul_zpow (rep_int ?_) _
  by_cases hx : x = 0
  · rw [hx]; simp
  have h1 := Int.lt_zpow_succ_log_self (b := 2) (by norm_num) |x|
  set k := Int.log 2 |x|
  have hu : (0 : ℚ) < 2 ^ (k - 52) := zpow_pos (by norm_num) _
  have hlt : |x / 2 ^ (k - 52)| < 2 ^ 53 := by
    rw [abs_div, abs_of_pos hu, div_lt_iff₀ hu, show (2 : ℚ) ^ 53 = 2 ^ (53 : ℤ) by norm_num,
      ← zpow_add₀ (by norm_num)]
    rw [show (53 : ℤ) + (k - 52) = k + 1 by ring]
    exact_mod_cast h1
  have hr := abs_sub_round (x / 2 ^ (k - 52))
  have hz : |((round (x / 2 ^ (k - 52)) : ℤ) : ℚ)| < 2 ^ 53 + 1 := by
    rw [abs_lt] at hlt ⊢
    rw [abs_le] at hr
    constructor <;> linarith [hlt.1, hlt.2, hr.1, hr.2]
  have : (|round (x / 2 ^ (k - 52))| : ℤ) < 2 ^ 53 + 1 := by exact_mod_cast hz
  omega

theorem near53_dist (x : ℚ) : |near53 x - x| ≤ 2 ^ (Int.log 2 |x| - 52) / 2 := by
  unfold near53
  set u : ℚ := 2 ^ (Int.log 2 |x| - 52)
  have hu : (0 : ℚ) < u := zpow_pos (by norm_num) _
  have hr := abs_sub_round (x / u)
  have : (round (x / u) : ℚ) * u - x = -((x / u - round (x / u)) * u) := by
    field_simp
    ring
  rw [this, abs_neg, abs_mul, abs_of_pos hu]
  nlinarith

theorem near53_nearest : Nearest near53 := by
  intro x
  refine ⟨near53_rep x, fun y hy => ?_⟩
  by_cases hx : x = 0
  · rw [hx]; simp [near53]
  have hx' : 0 < |x| := abs_pos.2 hx
  have hlo := Int.zpow_log_le_self (b := 2) (by norm_num) hx'
  have hu : (0 : ℚ) < 2 ^ (Int.log 2 |x| - 52) := zpow_pos (by norm_num) _
  have key : ∀ N : ℤ, |near53 x - x| ≤ |(N : ℚ) * 2 ^ (Int.log 2 |x| - 52) - x| := by
    intro N
    unfold near53
    have h := round_le (x / 2 ^ (Int.log 2 |x| - 52)) N
    have e : ∀ M : ℤ, |(M : ℚ) * 2 ^ (Int.log 2 |x| - 52) - x| =
        |x / 2 ^ (Int.log 2 |x| - 52) - M| * 2 ^ (Int.log 2 |x| - 52) := by
      intro M
      rw [abs_sub_comm]
      conv_rhs => rw [← abs_of_pos hu, ← abs_mul, abs_of_pos hu, sub_mul, div_mul_cancel₀ _ hu.ne']
    rw [e, e]
    exact mul_le_mul_of_nonneg_right h hu.le
  rcases le_or_gt ((2 : ℚ) ^ (Int.log 2 |x|)) |y| with h | h
  · obtain ⟨N, rfl⟩ := rep_scale hy h
    exact key N
  · have hlo' : (2 : ℚ) ^ (Int.log 2 |x|) ≤ |x| := by exact_mod_cast hlo
    have hpow : ((2 ^ 52 : ℤ) : ℚ) * 2 ^ (Int.log 2 |x| - 52) = 2 ^ (Int.log 2 |x|) := by
      rw [show ((2 ^ 52 : ℤ) : ℚ) = 2 ^ (52 : ℤ) by norm_num, ← zpow_add₀ (by norm_num)]
      congr 1; ring
    set P : ℚ := 2 ^ (Int.log 2 |x|) with hP
    rw [abs_lt] at h
    rcases lt_or_gt_of_ne hx with hn | hp
    · have := key (-(2 ^ 52))
      rw [abs_of_neg hn] at hlo'
      have e : ((-(2 ^ 52) : ℤ) : ℚ) * 2 ^ (Int.log 2 |x| - 52) = - P := by
        rw [Int.cast_neg, neg_mul, hpow]
      rw [e] at this
      refine this.trans ?_
      rw [abs_of_nonneg (show (0 : ℚ) ≤ -P - x by linarith), abs_of_nonneg (show (0 : ℚ) ≤ y - x by linarith [h.1])]
      linarith [h.1]
    · have := key (2 ^ 52)
      rw [abs_of_pos hp] at hlo'
      rw [hpow] at this
      refine this.trans ?_
      rw [abs_of_nonpos (show P - x ≤ 0 by linarith), abs_of_nonpos (show y - x ≤ 0 by linarith [h.2])]
      linarith [h.2]

variable {rnd : ℚ → ℚ}

theorem rnd_le (h : Nearest rnd) {x k : ℚ} (hk : Rep k) (hx : x ≤ k) : rnd x ≤ k := by
  by_contra hc
  push Not at hc
  have := (h x).2 k hk
  rw [abs_of_nonneg (by linarith), abs_of_nonneg (by linarith)] at this
  linarith

theorem le_rnd (h : Nearest rnd) {x k : ℚ} (hk : Rep k) (hx : k ≤ x) : k ≤ rnd x := by
  by_contra hc
  push Not at hc
  have := (h x).2 k hk
  rw [abs_of_nonpos (by linarith), abs_of_nonpos (by linarith)] at this
  linarith

theorem rnd_rep (h : Nearest rnd) {x : ℚ} (hx : Rep x) : rnd x = x := by
  have := (h x).2 x hx
  rw [sub_self, abs_zero, abs_nonpos_iff, sub_eq_zero] at this
  exact this

theorem rnd_error (h : Nearest rnd) (x : ℚ) : |rnd x - x| ≤ |x| / 2 ^ 53 := by
  by_cases hx : x = 0
  · rw [hx, rnd_rep h rep_zero]; simp
  refine ((h x).2 _ (near53_rep x)).trans ((near53_dist x).trans ?_)
  have hlo := Int.zpow_log_le_self (b := 2) (by norm_num) (abs_pos.2 hx)
  have hlo' : (2 : ℚ) ^ (Int.log 2 |x|) ≤ |x| := by exact_mod_cast hlo
  rw [zpow_sub₀ (by norm_num), div_div, show (2 : ℚ) ^ (52 : ℤ) * 2 = 2 ^ 53 by norm_num]
  exact div_le_div_of_nonneg_right hlo' (by norm_num)

/-- A number of 53 bits between a half and one has an exact difference from one. -/
theorem rep_one_sub {f : ℚ} (h : Rep f) (h1 : 1 / 2 ≤ f) (h2 : f ≤ 1) : Rep (1 - f) := by
  obtain ⟨N, hN⟩ := rep_scale h (k := -1) (by rw [abs_of_nonneg (by linarith)]; norm_num; linarith)
  refine ⟨2 ^ 53 - N, -53, ?_, ?_⟩
  · have hp : (0 : ℚ) < 2 ^ (-1 - 52 : ℤ) := zpow_pos (by norm_num) _
    have e : (2 : ℚ) ^ (-1 - 52 : ℤ) = 1 / 2 ^ 53 := by norm_num
    rw [e] at hN
    have h3 : (N : ℚ) = f * 2 ^ 53 := by rw [hN]; ring
    have h4 : (2 ^ 52 : ℚ) ≤ N := by rw [h3]; norm_num; linarith
    have h5 : (N : ℚ) ≤ 2 ^ 53 := by rw [h3]; norm_num; linarith
    have h4' : (2 ^ 52 : ℤ) ≤ N := by exact_mod_cast h4
    have h5' : N ≤ 2 ^ 53 := by exact_mod_cast h5
    rw [abs_of_nonneg (by linarith)]
    linarith
  · rw [hN]
    push_cast
    norm_num
    ring

/-- The number that is rounded up is close to the exact one. -/
theorem split_error (h : Nearest rnd) {q : ℚ} (h0 : 0 ≤ q) (h1 : q ≤ 1) (n : Nat) :
    |rnd (testSize rnd q * n) - (1 - q) * n| ≤ n / 2 ^ 51 ∧ 0 ≤ rnd (testSize rnd q * n) := by
  have hf0 : 0 ≤ rnd q := le_rnd h rep_zero h0
  have hf1 : rnd q ≤ 1 := rnd_le h (by exact_mod_cast rep_int (k := 1) (by norm_num)) h1
  have ht0 : 0 ≤ testSize rnd q := le_rnd h rep_zero (by linarith)
  have ht1 : testSize rnd q ≤ 1 := rnd_le h (by exact_mod_cast rep_int (k := 1) (by norm_num)) (by linarith)
  have hn : (0 : ℚ) ≤ n := Nat.cast_nonneg n
  have e1 := rnd_error h q
  have e2 := rnd_error h (1 - rnd q)
  have e3 := rnd_error h (testSize rnd q * n)
  rw [abs_of_nonneg h0] at e1
  rw [abs_of_nonneg (show (0 : ℚ) ≤ 1 - rnd q by linarith)] at e2
  rw [abs_of_nonneg (mul_nonneg ht0 hn)] at e3
  have e1' : |rnd q - q| ≤ 1 / 2 ^ 53 := e1.trans (div_le_div_of_nonneg_right h1 (by norm_num))
  have e2' : |testSize rnd q - (1 - rnd q)| ≤ 1 / 2 ^ 53 :=
    e2.trans (div_le_div_of_nonneg_right (by linarith) (by norm_num))
  have e3' : |rnd (testSize rnd q * n) - testSize rnd q * n| ≤ n / 2 ^ 53 :=
    e3.trans (div_le_div_of_nonneg_right (by nlinarith) (by norm_num))
  have e4 : |testSize rnd q - (1 - q)| ≤ 2 / 2 ^ 53 := by
    rw [abs_le] at e1' e2' ⊢
    constructor <;> linarith [e1'.1, e1'.2, e2'.1, e2'.2]
  have e5 : |testSize rnd q * n - (1 - q) * n| ≤ 2 / 2 ^ 53 * n := by
    rw [← sub_mul, abs_mul, abs_of_nonneg hn]
    exact mul_le_mul_of_nonneg_right e4 hn
  refine ⟨?_, le_rnd h rep_zero (mul_nonneg ht0 hn)⟩
  rw [abs_le] at e3' e5 ⊢
  have : (n : ℚ) / 2 ^ 53 + 2 / 2 ^ 53 * n ≤ n / 2 ^ 51 := by
    have : (n : ℚ) / 2 ^ 51 - (n / 2 ^ 53 + 2 / 2 ^ 53 * n) = n / 2 ^ 53 := by norm_num; ring
    have : (0 : ℚ) ≤ n / 2 ^ 53 := by positivity
    linarith
  constructor <;> linarith [e3'.1, e3'.2, e5.1, e5.2]

/-- What a split that succeeds looks like. -/
theorem split_ok {q : ℚ} {n a b : Nat} (h : split rnd q n = .ok (a, b)) :
    a + b = n ∧ 0 < a ∧ b = ⌈rnd (testSize rnd q * n)⌉₊ ∧ 0 < testSize rnd q ∧ testSize rnd q < 1 := by
  unfold split at h
  by_cases h1 : testSize rnd q ≤ 0 ∨ 1 ≤ testSize rnd q
  · rw [if_pos h1] at h; cases h
  rw [if_neg h1] at h
  by_cases h2 : n ≤ ⌈rnd (testSize rnd q * n)⌉₊
  · rw [if_pos h2] at h; cases h
  rw [if_neg h2] at h
  have := Except.ok.inj h
  rw [Prod.mk.injEq] at this
  push Not at h1
  exact ⟨by omega, by omega, this.2.symm, h1.1, h1.2⟩

/-- The rounding of a number between a half and one is the nearest multiple of `2 ^ -53`. -/
theorem rnd_half {x : ℚ} (h : Nearest rnd) (h1 : 1 / 2 ≤ x) :
    ∃ N : ℤ, rnd x = N / 2 ^ 53 ∧ ∀ M : ℤ, 0 ≤ M → M ≤ 2 ^ 53 → |(N : ℚ) / 2 ^ 53 - x| ≤ |(M : ℚ) / 2 ^ 53 - x| := by
  have hr : 1 / 2 ≤ rnd x := le_rnd h ⟨1, -1, by norm_num, by norm_num⟩ h1
  obtain ⟨N, hN⟩ := rep_scale (h x).1 (k := -1)
    (by rw [abs_of_nonneg (show (0 : ℚ) ≤ rnd x by linarith)]; norm_num; linarith)
  have e : (2 : ℚ) ^ (-1 - 52 : ℤ) = 1 / 2 ^ 53 := by norm_num
  rw [e, mul_one_div] at hN
  refine ⟨N, hN, fun M hM0 hM1 => ?_⟩
  rw [← hN]
  refine (h x).2 _ ?_
  have := rep_mul_zpow (rep_int (k := M) (by rw [abs_of_nonneg hM0]; exact hM1)) (-53)
  have e' : (M : ℚ) * 2 ^ (-53 : ℤ) = M / 2 ^ 53 := by
    rw [zpow_neg]; norm_num; ring
  rwa [e'] at this

theorem rnd_value {x : ℚ} (h : Nearest rnd) (h1 : 1 / 2 ≤ x) {N : ℤ} (hN : 0 ≤ N) (hN' : N ≤ 2 ^ 53)
    (hx : |(N : ℚ) - x * 2 ^ 53| < 1 / 2) : rnd x = N / 2 ^ 53 := by
  obtain ⟨M, hM, hb⟩ := rnd_half h h1
  have := hb N hN hN'
  have e : ∀ k : ℤ, (k : ℚ) / 2 ^ 53 - x = (k - x * 2 ^ 53) / 2 ^ 53 := by intro k; field_simp
  rw [e, e, abs_div, abs_div] at this
  have h3 : |(M : ℚ) - x * 2 ^ 53| ≤ |(N : ℚ) - x * 2 ^ 53| := by
    rwa [div_le_div_iff_of_pos_right (by positivity)] at this
  have h4 : |(M : ℚ) - x * 2 ^ 53| < 1 / 2 := h3.trans_lt hx
  rw [abs_lt] at h4 hx
  have h5 : (M : ℚ) < N + 1 := by linarith [h4.2, hx.1]
  have h6 : (N : ℚ) < M + 1 := by linarith [h4.1, hx.2]
  have h5' : M < N + 1 := by exact_mod_cast h5
  have h6' : N < M + 1 := by exact_mod_cast h6
  rw [hM, show M = N by omega]

/-- A fraction whose rounding is not below it gives the exact number of test rows. -/
theorem ceil_exact {q : ℚ} (h : Nearest rnd) (h1 : 1 / 2 ≤ q) (h2 : q < 1) (hup : q ≤ rnd q) {n : Nat}
    (hn : n * q.den ≤ 2 ^ 50) :
    testSize rnd q = 1 - rnd q ∧ ⌈rnd (testSize rnd q * n)⌉₊ = ⌈(1 - q) * n⌉₊ := by
  have hf1 : rnd q ≤ 1 := rnd_le h (by exact_mod_cast rep_int (k := 1) (by norm_num)) h2.le
  have ht : testSize rnd q = 1 - rnd q := rnd_rep h (rep_one_sub (h q).1 (by linarith) hf1)
  refine ⟨ht, ?_⟩
  have hn0 : (0 : ℚ) ≤ n := Nat.cast_nonneg n
  obtain ⟨herr, hz⟩ := split_error h (by linarith) h2.le n
  set z := rnd (testSize rnd q * n) with hzdef
  have hd : (0 : ℚ) < q.den := by exact_mod_cast q.den_pos
  have hnn : n ≤ 2 ^ 50 := (Nat.le_mul_of_pos_right n q.den_pos).trans hn
  have hKn : ⌈(1 - q) * n⌉₊ ≤ n := by
    rw [Nat.ceil_le]; nlinarith
  apply le_antisymm
  · rw [Nat.ceil_le]
    refine rnd_le h ?_ ?_
    · have := rep_int (k := (⌈(1 - q) * n⌉₊ : ℤ)) (by
        rw [abs_of_nonneg (by positivity)]
        have : ((⌈(1 - q) * n⌉₊ : ℕ) : ℤ) ≤ ((2 ^ 50 : ℕ) : ℤ) := by exact_mod_cast hKn.trans hnn
        refine this.trans (by norm_num))
      exact_mod_cast this
    · rw [ht]
      refine le_trans ?_ (Nat.le_ceil _)
      nlinarith
  · by_contra hc
    push Not at hc
    have hc1 : (⌈z⌉₊ : ℚ) < (1 - q) * n := Nat.lt_ceil.1 hc
    have hzc : z ≤ ⌈z⌉₊ := Nat.le_ceil z
    have hqd : q * q.den = q.num := Rat.mul_den_eq_num q
    have hint : ((⌈z⌉₊ * q.den : ℤ) : ℚ) < (((q.den - q.num) * n : ℤ) : ℚ) := by
      push_cast
      rw [← hqd]
      nlinarith
    have hint' : (⌈z⌉₊ * q.den : ℤ) + 1 ≤ (q.den - q.num) * n := by exact_mod_cast hint
    have hint2 : (((⌈z⌉₊ * q.den : ℤ) + 1 : ℤ) : ℚ) ≤ (((q.den - q.num) * n : ℤ) : ℚ) := by exact_mod_cast hint'
    push_cast at hint2
    rw [← hqd] at hint2
    rw [abs_le] at herr
    have hnd : (n : ℚ) * q.den ≤ 2 ^ 50 := by exact_mod_cast hn
    have h3 : (1 - q) * n - n / 2 ^ 51 ≤ ⌈z⌉₊ := by linarith [herr.1]
    have h4 : ((1 - q) * n - n / 2 ^ 51) * q.den ≤ ⌈z⌉₊ * q.den := mul_le_mul_of_nonneg_right h3 hd.le
    have h5 : (n : ℚ) / 2 ^ 51 * q.den ≤ 1 / 2 := by
      rw [div_mul_eq_mul_div, div_le_iff₀ (by positivity)]
      refine hnd.trans (by norm_num)
    linarith

theorem floor_ceil {q : ℚ} (h1 : 0 ≤ q) (h2 : q ≤ 1) (n : Nat) : ⌊q * n⌋₊ + ⌈(1 - q) * n⌉₊ = n := by
  have hn0 : (0 : ℚ) ≤ n := Nat.cast_nonneg n
  have hK : ⌈(1 - q) * n⌉₊ ≤ n := by rw [Nat.ceil_le]; nlinarith
  have : ⌊q * n⌋₊ = n - ⌈(1 - q) * n⌉₊ := by
    rw [Nat.floor_eq_iff (by positivity)]
    have h3 := Nat.le_ceil ((1 - q) * n)
    have h4 := Nat.ceil_lt_add_one (show (0 : ℚ) ≤ (1 - q) * n by nlinarith)
    rw [Nat.cast_sub hK]
    constructor <;> linarith
  omega

theorem floor_div_nat (m d : Nat) : ⌊((m : ℕ) : ℚ) / ((d : ℕ) : ℚ)⌋₊ = m / d := Nat.floor_div_eq_div m d

end Verif.SplitSize
