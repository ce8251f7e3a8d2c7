import Verif.Lemmas.SplitSize
/-!
C143: `selection_frac` and `estimation_frac` "the fraction of the dataset to use for training"
(`/repo/src/pyuoi/linear_model/base.py:30-37`) and the number of rows that the bootstraps train on, in double precision.
-/
namespace Verif.Props.SplitSize
open Verif.SplitSize Verif.Spec.SplitSize

/-- C143 (partial): whatever the rounding to nearest does with ties, a bootstrap that goes through uses every row exactly
    once, trains on at least one, and the number of training rows differs from the fraction of the rows by less than one
    row and the rounding error; away from the integers it is the fraction rounded down.  Missing: fractions of the rows
    that are (almost) integers, see `C143_negation`. -/
theorem C143_partial {rnd : ℚ → ℚ} (h : Nearest rnd) {q : ℚ} (h0 : 0 ≤ q) (h1 : q ≤ 1) {n a b : Nat}
    (hs : split rnd q n = .ok (a, b)) :
    a + b = n ∧ 0 < a ∧ q * n - 1 - n / 2 ^ 51 < a ∧ (a : ℚ) ≤ q * n + n / 2 ^ 51 ∧
      ((∀ k : ℤ, (n : ℚ) / 2 ^ 51 < |q * n - k|) → a = ⌊q * n⌋₊) := by
  obtain ⟨hab, ha, hb, -, -⟩ := split_ok hs
  obtain ⟨herr, hz⟩ := split_error h h0 h1 n
  rw [abs_le] at herr
  have hn : (a : ℚ) + b = n := by exact_mod_cast hab
  have hc1 : rnd (testSize rnd q * n) ≤ b := by rw [hb]; exact Nat.le_ceil _
  have hc2 : (b : ℚ) < rnd (testSize rnd q * n) + 1 := by rw [hb]; exact Nat.ceil_lt_add_one hz
  have hlo : q * n - 1 - n / 2 ^ 51 < a := by linarith [herr.2]
  have hhi : (a : ℚ) ≤ q * n + n / 2 ^ 51 := by linarith [herr.1]
  refine ⟨hab, ha, hlo, hhi, fun hfar => ?_⟩
  have hn0 : (0 : ℚ) ≤ n := Nat.cast_nonneg n
  have f1 := hfar a
  have f2 := hfar (a + 1)
  push_cast at f1 f2
  symm
  rw [Nat.floor_eq_iff (by positivity)]
  rw [lt_abs] at f1 f2
  have hp : (0 : ℚ) ≤ n / 2 ^ 51 := by positivity
  constructor
  · rcases f1 with f | f <;> linarith
  · rcases f2 with f | f <;> linarith

/-- Three quarters of 10 rows: 7.5 is far from the integers, and 7 rows are trained on. -/
example : split near53 (3 / 4) 10 = .ok (7, 3) ∧ Nearest near53 := ⟨by decide +kernel, near53_nearest⟩

/-- C143: a fraction from one half up that the rounding does not make smaller gives the fraction of the rows rounded down,
    for every number of rows (up to `2 ^ 50` over the denominator); no training row at all is a `ValueError`. -/
theorem C143_rounded_up {rnd : ℚ → ℚ} (h : Nearest rnd) {q : ℚ} (h0 : 1 / 2 ≤ q) (h1 : q < 1) (hup : q ≤ rnd q) {n : Nat}
    (hn : n * q.den ≤ 2 ^ 50) :
    split rnd q n = if ⌊q * n⌋₊ = 0 then .error .valueError else .ok (⌊q * n⌋₊, n - ⌊q * n⌋₊) := by
  obtain ⟨ht, hc⟩ := ceil_exact h h0 h1 hup hn
  have hfc := floor_ceil (q := q) (by linarith) h1.le n
  unfold split
  rw [hc]
  by_cases hf : ⌊q * n⌋₊ = 0
  · rw [if_pos hf]
    rw [if_pos (show n ≤ _ by omega), ite_self]
  rw [if_neg hf, if_neg (show ¬ n ≤ _ by omega)]
  have hnpos : 1 ≤ n := by
    rcases Nat.eq_zero_or_pos n with h | h
    · subst h; simp at hf
    · exact h
  have hlt : rnd q < 1 := by
    have e := rnd_error h q
    rw [abs_of_nonneg (show (0 : ℚ) ≤ q by linarith), abs_le] at e
    have hd : (0 : ℚ) < q.den := by exact_mod_cast q.den_pos
    have hqd : q * q.den = q.num := Rat.mul_den_eq_num q
    have hlt : ((q.num : ℤ) : ℚ) < ((q.den : ℤ) : ℚ) := by rw [← hqd]; push_cast; nlinarith
    have hlt' : q.num + 1 ≤ q.den := by exact_mod_cast hlt
    have hlt2 : ((q.num + 1 : ℤ) : ℚ) ≤ ((q.den : ℤ) : ℚ) := by exact_mod_cast hlt'
    push_cast at hlt2
    rw [← hqd] at hlt2
    have hd2 : (q.den : ℚ) ≤ 2 ^ 50 := by
      have : q.den ≤ 2 ^ 50 := (Nat.le_mul_of_pos_left _ hnpos).trans hn
      exact_mod_cast this
    have hgap : 1 / 2 ^ 50 ≤ 1 - q := by
      rw [div_le_iff₀ (by positivity)]
      nlinarith
    have : q / 2 ^ 53 ≤ 1 / 2 ^ 53 := div_le_div_of_nonneg_right h1.le (by positivity)
    have : (1 : ℚ) / 2 ^ 53 < 1 / 2 ^ 50 := by norm_num
    linarith [e.2]
  rw [if_neg (by rw [ht]; push Not; constructor <;> linarith)]
  congr 2 <;> omega

/-- C143: the defaults, 0.9 (linear and logistic models) and 0.8 (Poisson models), train on nine tenths and eight tenths
    of the rows rounded down; one row is a `ValueError`. -/
theorem C143_default {rnd : ℚ → ℚ} (h : Nearest rnd) {n : Nat} (hn : n ≤ 10 ^ 14) :
    split rnd (9 / 10) n = (if n ≤ 1 then .error .valueError else .ok (9 * n / 10, n - 9 * n / 10)) ∧
    split rnd (8 / 10) n = (if n ≤ 1 then .error .valueError else .ok (8 * n / 10, n - 8 * n / 10)) := by
  have r1 : rnd (9 / 10) = ((8106479329266893 : ℤ) : ℚ) / 2 ^ 53 :=
    rnd_value h (by norm_num) (by norm_num) (by norm_num) (by rw [abs_lt]; norm_num)
  have r2 : rnd (8 / 10) = ((7205759403792794 : ℤ) : ℚ) / 2 ^ 53 :=
    rnd_value h (by norm_num) (by norm_num) (by norm_num) (by rw [abs_lt]; norm_num)
  have d1 : (9 / 10 : ℚ).den = 10 := by decide +kernel
  have d2 : (8 / 10 : ℚ).den = 5 := by decide +kernel
  have f1 : ⌊(9 / 10 : ℚ) * n⌋₊ = 9 * n / 10 := by
    rw [show (9 / 10 : ℚ) * n = ((9 * n : ℕ) : ℚ) / ((10 : ℕ) : ℚ) by push_cast; ring, floor_div_nat]
  have f2 : ⌊(8 / 10 : ℚ) * n⌋₊ = 8 * n / 10 := by
    rw [show (8 / 10 : ℚ) * n = ((8 * n : ℕ) : ℚ) / ((10 : ℕ) : ℚ) by push_cast; ring, floor_div_nat]
  rw [C143_rounded_up h (by norm_num) (by norm_num) (by rw [r1]; norm_num) (by rw [d1]; omega),
    C143_rounded_up h (by norm_num) (by norm_num) (by rw [r2]; norm_num) (by rw [d2]; omega), f1, f2]
  constructor <;> (split_ifs <;> first | rfl | omega)

example : split near53 (9 / 10) 103 = .ok (92, 11) ∧ split near53 (8 / 10) 103 = .ok (82, 21) := by
  have h := C143_default near53_nearest (n := 103) (by norm_num)
  exact ⟨h.1, h.2⟩

/-- C143: all rows, or none, are a `ValueError` for every number of rows. -/
theorem C143_ends {rnd : ℚ → ℚ} (h : Nearest rnd) (n : Nat) :
    split rnd 1 n = .error .valueError ∧ split rnd 0 n = .error .valueError := by
  have r1 : rnd 1 = 1 := rnd_rep h (by exact_mod_cast rep_int (k := 1) (by norm_num))
  have r0 : rnd 0 = 0 := rnd_rep h rep_zero
  constructor
  · unfold split testSize; rw [r1, sub_self, r0]; simp
  · unfold split testSize; rw [r0, sub_zero, r1]; simp

example : split near53 1 100 = .error .valueError := (C143_ends near53_nearest 100).1

/-- C143: the CUR decomposition takes every row for the fraction 1, nine tenths of them rounded down for 0.9, and never more
    than the fraction of them and the rounding error. -/
theorem C143_cur {rnd : ℚ → ℚ} (h : Nearest rnd) (n : Nat) :
    curRows rnd 1 n = .ok n ∧ (2 ≤ n → n ≤ 10 ^ 14 → curRows rnd (9 / 10) n = .ok (9 * n / 10)) ∧
      ∀ q : ℚ, 0 ≤ q → q ≤ 1 → ∀ a, curRows rnd q n = .ok a → (a : ℚ) ≤ q * n + n / 2 ^ 51 := by
  have r1 : rnd 1 = 1 := rnd_rep h (by exact_mod_cast rep_int (k := 1) (by norm_num))
  refine ⟨by unfold curRows; rw [if_pos r1], fun hn hn' => ?_, fun q h0 h1 a ha => ?_⟩
  · have r : rnd (9 / 10) = ((8106479329266893 : ℤ) : ℚ) / 2 ^ 53 :=
      rnd_value h (by norm_num) (by norm_num) (by norm_num) (by rw [abs_lt]; norm_num)
    unfold curRows
    rw [if_neg (by rw [r]; norm_num), (C143_default h hn').1, if_neg (by omega)]
    rfl
  · unfold curRows at ha
    by_cases hr : rnd q = 1
    · rw [if_pos hr] at ha
      obtain rfl := Except.ok.inj ha
      have e := rnd_error h q
      rw [hr, abs_of_nonneg h0, abs_le] at e
      have h2 : q / 2 ^ 53 ≤ 1 / 2 ^ 51 := by
        refine (div_le_div_of_nonneg_right h1 (by positivity)).trans (by norm_num)
      have hn : (0 : ℚ) ≤ n := Nat.cast_nonneg n
      have h3 : 0 ≤ (q + 1 / 2 ^ 51 - 1) * n := mul_nonneg (by linarith [e.2]) hn
      have h4 : (q + 1 / 2 ^ 51 - 1) * (n : ℚ) = q * n + n / 2 ^ 51 - n := by ring
      linarith
    · rw [if_neg hr] at ha
      cases hs : split rnd q n with
      | error e => rw [hs] at ha; cases ha
      | ok p =>
        rw [hs] at ha
        obtain rfl := Except.ok.inj ha
        exact (C143_partial h h0 h1 (a := p.1) (b := p.2) hs).2.2.2.1

example : curRows near53 1 50 = .ok 50 ∧ curRows near53 (9 / 10) 50 = .ok 45 ∧ curRows near53 (3 / 4) 10 = .ok 7 := by
  decide +kernel

/-- C143 is false: seven tenths of ten rows are seven rows, but every rounding to nearest leaves six of them to train on. -/
theorem C143_negation :
    (∀ rnd : ℚ → ℚ, Nearest rnd → split rnd (7 / 10) 10 = .ok (6, 4)) ∧ ⌊(7 / 10 : ℚ) * (10 : ℕ)⌋₊ = 7 ∧
      ∃ rnd : ℚ → ℚ, Nearest rnd := by
  refine ⟨fun rnd h => ?_, by norm_num, near53, near53_nearest⟩
  have r : rnd (7 / 10) = ((6305039478318694 : ℤ) : ℚ) / 2 ^ 53 :=
    rnd_value h (by norm_num) (by norm_num) (by norm_num) (by rw [abs_lt]; norm_num)
  have t : testSize rnd (7 / 10) = 2702159776422298 / 2 ^ 53 := by
    unfold testSize
    rw [r, rnd_rep h ⟨2702159776422298, -53, by norm_num, by norm_num⟩]
    norm_num
  have z : rnd (testSize rnd (7 / 10) * (10 : ℕ)) = 6755399441055745 / 2 ^ 51 := by
    rw [t, rnd_rep h ⟨6755399441055745, -51, by norm_num, by norm_num⟩]
    norm_num
  have c : ⌈rnd (testSize rnd (7 / 10) * (10 : ℕ))⌉₊ = 4 := by
    rw [z, Nat.ceil_eq_iff (by norm_num)]
    norm_num
  unfold split
  rw [c, t, if_neg (by norm_num), if_neg (by norm_num)]

/-- With seventeen samples the same fraction is met. -/
example : split near53 (7 / 10) 17 = .ok (11, 6) := by decide +kernel

end Verif.Props.SplitSize
