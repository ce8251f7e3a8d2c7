import Verif.Model.Proportion
import Verif.Spec.Proportion
import Verif.Lemmas.SplitSize
import Verif.Lemmas.Thresholds
import Verif.Lemmas.Intersection
/-! Lemmas on proportions of the bootstraps. -/
namespace Verif.Proportion
open Verif.Py Verif.Thresholds Verif.Intersection Verif.Intersection.Spec Verif.SplitSize Verif.Spec.SplitSize Verif.Spec.Proportion

/-- The threshold of one proportion. -/
def thr (rnd : ℚ → ℚ) (p : ℚ) (n : Nat) : Int := trunc (rnd (rnd p * n))

variable {rnd : ℚ → ℚ}

theorem prod_error (h : Nearest rnd) {p : ℚ} (h0 : 0 ≤ p) (h1 : p ≤ 1) (n : Nat) :
    |rnd (rnd p * n) - p * n| ≤ n / 2 ^ 51 ∧ 0 ≤ rnd (rnd p * n) := by
  have hf0 : 0 ≤ rnd p := le_rnd h rep_zero h0
  have hf1 : rnd p ≤ 1 := rnd_le h (by exact_mod_cast rep_int (k := 1) (by norm_num)) h1
  have hn : (0 : ℚ) ≤ n := Nat.cast_nonneg n
  have e1 := rnd_error h p
  have e3 := rnd_error h (rnd p * n)
  rw [abs_of_nonneg h0] at e1
  rw [abs_of_nonneg (mul_nonneg hf0 hn)] at e3
  have e1' : |rnd p - p| ≤ 1 / 2 ^ 53 := e1.trans (div_le_div_of_nonneg_right h1 (by norm_num))
  have e3' : |rnd (rnd p * n) - rnd p * n| ≤ n / 2 ^ 53 :=
    e3.trans (div_le_div_of_nonneg_right (by nlinarith) (by norm_num))
  have e5 : |rnd p * n - p * n| ≤ 1 / 2 ^ 53 * n := by
    rw [← sub_mul, abs_mul, abs_of_nonneg hn]
    exact mul_le_mul_of_nonneg_right e1' hn
  refine ⟨?_, le_rnd h rep_zero (mul_nonneg hf0 hn)⟩
  rw [abs_le] at e3' e5 ⊢
  have : (n : ℚ) / 2 ^ 53 + 1 / 2 ^ 53 * n ≤ n / 2 ^ 51 := by
    have : (n : ℚ) / 2 ^ 51 - (n / 2 ^ 53 + 1 / 2 ^ 53 * n) = 2 * (n / 2 ^ 53) := by norm_num; ring
    have : (0 : ℚ) ≤ n / 2 ^ 53 := by positivity
    linarith
  constructor <;> linarith [e3'.1, e3'.2, e5.1, e5.2]

theorem thr_floor (h : Nearest rnd) {p : ℚ} (h0 : 0 ≤ p) (h1 : p ≤ 1) (n : Nat) : thr rnd p n = ⌊rnd (rnd p * n)⌋ := by
  unfold thr trunc
  rw [if_pos (prod_error h h0 h1 n).2]

/-- An integer above the product is above it by more than the rounding error. -/
theorem int_gap {p : ℚ} {n : Nat} (hn : n * p.den ≤ 2 ^ 50) {k : Int} (hk : p * n < k) : p * n + n / 2 ^ 51 < k := by
  have hd : (0 : ℚ) < p.den := by exact_mod_cast p.den_pos
  have hqd : p * p.den = p.num := Rat.mul_den_eq_num p
  have hi : ((p.num * n : ℤ) : ℚ) < ((k * p.den : ℤ) : ℚ) := by
    push_cast; rw [← hqd]; nlinarith
  have hi' : p.num * n + 1 ≤ k * p.den := by exact_mod_cast hi
  have hi2 : ((p.num * n + 1 : ℤ) : ℚ) ≤ ((k * p.den : ℤ) : ℚ) := by exact_mod_cast hi'
  push_cast at hi2
  rw [← hqd] at hi2
  have hnd : (n : ℚ) * p.den ≤ 2 ^ 50 := by exact_mod_cast hn
  have h5 : (n : ℚ) / 2 ^ 51 * p.den ≤ 1 / 2 := by
    rw [div_mul_eq_mul_div, div_le_iff₀ (by positivity)]
    exact hnd.trans (by norm_num)
  by_contra hc
  push Not at hc
  have := mul_le_mul_of_nonneg_right hc hd.le
  linarith

theorem int_gap' {p : ℚ} {n : Nat} (hn : n * p.den ≤ 2 ^ 50) {k : Int} (hk : (k : ℚ) < p * n) : (k : ℚ) + n / 2 ^ 51 < p * n := by
  have := int_gap (p := -p) (n := n) (by rwa [Rat.den_neg_eq_den]) (k := -k) (by push_cast; linarith)
  push_cast at this
  linarith

theorem thr_bounds (h : Nearest rnd) {p : ℚ} (h0 : 0 ≤ p) (h1 : p ≤ 1) {n : Nat} (hn : n * p.den ≤ 2 ^ 50) :
    (thr rnd p n : ℚ) ≤ p * n ∧ p * n < thr rnd p n + 2 ∧
    ((∀ k : Int, p * n ≠ k) → thr rnd p n = ⌊p * n⌋) ∧ (p ≤ rnd p → thr rnd p n = ⌊p * n⌋) ∧
    ∀ k : Int, p * n < k + 1 ∨ (k : ℚ) + 1 < p * n → (k < thr rnd p n ↔ k + 1 ≤ ⌊p * n⌋) := by
  rw [thr_floor h h0 h1 n]
  obtain ⟨herr, hz⟩ := prod_error h h0 h1 n
  rw [abs_le] at herr
  set z := rnd (rnd p * n) with hzd
  have hn0 : (0 : ℚ) ≤ n := Nat.cast_nonneg n
  have hle : (⌊z⌋ : ℚ) ≤ p * n := by
    by_contra hc
    push Not at hc
    have := int_gap hn hc
    linarith [Int.floor_le z, herr.2]
  have hge : ∀ k : Int, (k : ℚ) < p * n → k ≤ ⌊z⌋ := by
    intro k hk
    rw [Int.le_floor]
    have := int_gap' hn hk
    linarith [herr.1]
  have hlt : ∀ k : Int, k ≤ ⌊z⌋ → k ≤ ⌊p * n⌋ := by
    intro k hk
    rw [Int.le_floor]
    have : (k : ℚ) ≤ ⌊z⌋ := by exact_mod_cast hk
    linarith
  refine ⟨hle, ?_, fun hk => ?_, fun hup => ?_, fun k hk => ?_⟩
  · by_contra hc
    push Not at hc
    have : (((⌊z⌋ + 1 : ℤ)) : ℚ) < p * n := by push_cast; linarith
    have := hge _ this
    omega
  · refine le_antisymm (hlt _ le_rfl) (hge _ (lt_of_le_of_ne (Int.floor_le _) fun hc => hk _ hc.symm))
  · refine le_antisymm (hlt _ le_rfl) ?_
    rw [Int.le_floor]
    refine le_rnd h ?_ ((Int.floor_le _).trans (mul_le_mul_of_nonneg_right hup hn0))
    refine rep_int ?_
    have hnn : n ≤ 2 ^ 50 := (Nat.le_mul_of_pos_right n p.den_pos).trans hn
    rw [abs_of_nonneg (Int.floor_nonneg.2 (mul_nonneg h0 hn0))]
    have h3 : ⌊p * n⌋ ≤ (n : ℤ) := by
      have : (⌊p * n⌋ : ℚ) ≤ n := (Int.floor_le _).trans (by nlinarith)
      exact_mod_cast this
    have h4 : (n : ℤ) ≤ ((2 ^ 50 : ℕ) : ℤ) := by exact_mod_cast hnn
    exact (h3.trans h4).trans (by norm_num)
  · rcases hk with hk | hk
    · constructor
      · intro hk2; exact hlt _ hk2
      · intro hk2
        exfalso
        have : ((k + 1 : ℤ) : ℚ) ≤ p * n := Int.le_floor.1 hk2
        push_cast at this; linarith
    · constructor
      · intro _; rw [Int.le_floor]; push_cast; exact hk.le
      · intro _
        have := hge (k + 1) (by push_cast; exact hk)
        omega

theorem mapM_float (ps : List PyFloat) : (ps.map PyItem.float).mapM isFloat = some ps := by
  induction ps with
  | nil => rfl
  | cons p ps ih => simp [List.mapM_cons, isFloat, ih]

theorem convert_list (ps : List ℚ) (n : Nat) :
    convert (doubles rnd) (.list (ps.map fun p => .float (.fin (rnd p)))) n = .ok (ps.map fun p => thr rnd p n) := by
  unfold convert
  have : (ps.map fun p => PyItem.float (.fin (rnd p))) = (ps.map fun p => PyFloat.fin (rnd p)).map .float := by
    rw [List.map_map]; rfl
  rw [this]
  dsimp only
  rw [mapM_float]
  dsimp only
  rw [List.map_map]
  rfl

theorem supportsList_ok {K : Type} [Zero K] [DecidableEq K] {A : Arr3 K} {ps : List ℚ}
    (ht : ∀ p ∈ ps, 1 ≤ thr rnd p A.n0 ∧ thr rnd p A.n0 ≤ A.n0) :
    supportsList rnd A ps = intersection A (some (ps.map fun p => thr rnd p A.n0)) := by
  have : stabilityToThreshold (doubles rnd) (.list (ps.map fun p => .float (.fin (rnd p)))) A.n0 =
      .ok (ps.map fun p => thr rnd p A.n0) := by
    rw [stab_ok_iff]
    refine ⟨convert_list ps A.n0, fun t h => ?_⟩
    obtain ⟨p, hp, rfl⟩ := List.mem_map.1 h
    exact ht p hp
  unfold supportsList
  rw [this]

/-- Rows by threshold. -/
theorem rows_for {K : Type} [Zero K] [DecidableEq K] {A : Arr3 K} {ps : List ℚ} (h1 : ps.length * A.n1 ≠ 1) (h2 : A.n2 ≠ 1)
    (ht : ∀ p ∈ ps, 1 ≤ thr rnd p A.n0 ∧ thr rnd p A.n0 ≤ A.n0) {P : ℚ → Nat → List Bool → Prop}
    (hP : ∀ p ∈ ps, ∀ l < A.n1, ∀ row, IsStable A (thr rnd p A.n0) l row → P p l row) :
    ∃ rows, supportsList rnd A ps = .ok (.d2 rows) ∧ rows.Nodup ∧ RowsFor A ps P rows := by
  rw [supportsList_ok ht, intersection_d2 (by simpa using h1) h2]
  refine ⟨_, rfl, nodup_uniqueRows _, ?_, ?_⟩
  · intro row hr
    rw [mem_uniqueRows, mem_allRows] at hr
    obtain ⟨t, ht', l, hl, rfl⟩ := hr
    obtain ⟨p, hp, rfl⟩ := List.mem_map.1 ht'
    exact ⟨p, hp, l, hl, hP p hp l hl _ (isStable_supportRow A _ l)⟩
  · intro p hp l hl
    refine ⟨supportRow A (thr rnd p A.n0) l, ?_, hP p hp l hl _ (isStable_supportRow A _ l)⟩
    rw [mem_uniqueRows, mem_allRows]
    exact ⟨_, List.mem_map.2 ⟨p, hp, rfl⟩, l, hl, rfl⟩

theorem thr_nine_tenths (h : Nearest rnd) : thr rnd (9 / 10) 24 = 21 := by
  have := (thr_bounds h (p := 9 / 10) (n := 24) (by norm_num) (by norm_num) (by decide +kernel)).2.2.1
  rw [this ?_]
  · norm_num
  · intro k hk
    have : ((216 : ℤ) : ℚ) = ((10 * k : ℤ) : ℚ) := by push_cast at hk ⊢; linarith
    have : (216 : ℤ) = 10 * k := by exact_mod_cast this
    omega

theorem thr_57 (h : Nearest rnd) : thr rnd (57 / 100) 100 = 56 := by
  have r : rnd (57 / 100) = ((5134103575202365 : ℤ) : ℚ) / 2 ^ 53 :=
    rnd_value h (by norm_num) (by norm_num) (by norm_num) (by rw [abs_lt]; norm_num)
  rw [thr_floor h (by norm_num) (by norm_num), r]
  have hx := (h (((5134103575202365 : ℤ) : ℚ) / 2 ^ 53 * (100 : ℕ))).2 (57 - 1 / 2 ^ 47)
    ⟨57 * 2 ^ 47 - 1, -47, by norm_num, by norm_num⟩
  have hd : |(57 - 1 / 2 ^ 47 : ℚ) - ((5134103575202365 : ℤ) : ℚ) / 2 ^ 53 * (100 : ℕ)| = 20 / 2 ^ 53 := by
    rw [abs_of_nonpos (by norm_num)]; norm_num
  rw [hd, abs_le] at hx
  rw [Int.floor_eq_iff]
  have hv : ((5134103575202365 : ℤ) : ℚ) / 2 ^ 53 * (100 : ℕ) = 57 - 44 / 2 ^ 53 := by norm_num
  rw [hv] at hx ⊢
  constructor
  · push_cast; linarith [hx.1, show (20 : ℚ) / 2 ^ 53 + 44 / 2 ^ 53 ≤ 1 by norm_num]
  · push_cast; linarith [hx.2, show (20 : ℚ) / 2 ^ 53 < 44 / 2 ^ 53 by norm_num]

end Verif.Proportion
