import Verif.Lemmas.Sse
import Mathlib.Tactic.NormNum
import Mathlib.Tactic.FinCases
import Mathlib.Algebra.Order.Ring.Rat
/-!
C140: a build of the L-BFGS library with SSE2 instructions computes what the portable build computes.
-/
namespace Verif.Sse
open Verif.Spec.Sse

variable {K : Type}

section
variable [Field K]

/-- On a multiple of eight entries the vector routines replace exactly these entries, by the values of the portable
    routines. -/
theorem C140_vectors {n : Nat} (h8 : 8 ∣ n) (x y z : Nat → K) (c : K) :
    vecset x c n = upTo n (fun _ => c) x ∧ veccpy y x n = upTo n x y ∧
    vecncpy y x n = upTo n (fun k => -x k) y ∧ vecadd y x c n = upTo n (fun k => y k + c * x k) y ∧
    vecdiff z x y n = upTo n (fun k => x k - y k) z ∧ vecscale y c n = upTo n (fun k => y k * c) y ∧
    vecmul y x n = upTo n (fun k => y k * x k) y := by
  obtain ⟨q, rfl⟩ := h8
  have e8 : 8 * q = 0 + q * 8 := by omega
  have e4 : 8 * q = 0 + (2 * q) * 4 := by omega
  refine ⟨funext fun k => ?_, funext fun k => ?_, funext fun k => ?_, funext fun k => ?_, funext fun k => ?_,
    funext fun k => ?_, funext fun k => ?_⟩
  · refine (forBy_block (by omega) (g := fun _ _ => c) (fun i y k => store4 y i (fun _ => c) k) q 0 e8 x k).trans ?_
    simp [upTo]
  · refine (forBy_block (by omega) (g := fun k _ => x k) (fun i y k => store4 y i x k) q 0 e8 y k).trans ?_
    simp [upTo]
  · refine (forBy_block (by omega) (g := fun k _ => 0 - x k) (fun i y k => store4 y i (fun k => 0 - x k) k) q 0 e8 y
      k).trans ?_
    simp [upTo]
  · refine (forBy_block (by omega) (g := fun k v => v + x k * c)
      (fun i y k => store2 y i (fun k => y k + x k * c) k) (2 * q) 0 e4 y k).trans ?_
    simp [upTo, mul_comm]
  · refine (forBy_block (by omega) (g := fun k _ => x k - y k) (fun i z k => store4 z i (fun k => x k - y k) k) q 0 e8 z
      k).trans ?_
    simp [upTo]
  · refine (forBy_block (by omega) (g := fun _ v => v * c)
      (fun i y k => store2 y i (fun k => y k * c) k) (2 * q) 0 e4 y k).trans ?_
    simp [upTo]
  · refine (forBy_block (by omega) (g := fun k v => v * x k)
      (fun i y k => store4 y i (fun k => y k * x k) k) q 0 e8 y k).trans ?_
    simp [upTo]

/-- The inner product adds up the products of these entries. -/
theorem C140_dot {n : Nat} (h8 : 8 ∣ n) (x y : Nat → K) (sqrt : K → K) :
    vecdot x y n = ∑ k ∈ Finset.range n, x k * y k ∧
    vec2norm sqrt x n = sqrt (∑ k ∈ Finset.range n, x k * x k) ∧
    vec2norminv sqrt x n = 1 / sqrt (∑ k ∈ Finset.range n, x k * x k) :=
  ⟨vecdot_sum h8 x y, by rw [vec2norm, vecdot_sum h8], by rw [vec2norminv, vecdot_sum h8]⟩
end

/-- The number of variables is rounded up to the next multiple of eight. -/
theorem C140_round (m : Nat) : 8 ∣ (roundOut m).toNat ∧ m ≤ (roundOut m).toNat ∧ (roundOut m).toNat < m + 8 := by
  have : roundOut m = ((m + 7) / 8 * 8 : Nat) := by
    unfold roundOut
    rw [Int.tdiv_eq_ediv_of_nonneg (by omega)]
    push_cast
    rfl
  rw [this, Int.toNat_natCast]
  omega

section
variable [Field K]

/-- With the vectors padded by zeros to the rounded length, every routine the optimiser uses gives on the first `m` entries what
    the portable routine gives on vectors of length `m`, and leaves the padding zero. -/
theorem C140_padded_partial [LinearOrder K] [IsStrictOrderedRing K] (m : Nat) (x y z : Nat → K) (c : K) (sqrt : K → K)
    (hx : Pad m (roundOut m).toNat x) (hy : Pad m (roundOut m).toNat y) :
    let N := (roundOut m).toNat
    (Pad m N (veccpy z x N) ∧ view m (veccpy z x N) = view m x) ∧
    (Pad m N (vecncpy z x N) ∧ view m (vecncpy z x N) = fun i => -view m x i) ∧
    (Pad m N (vecadd y x c N) ∧ view m (vecadd y x c N) = Lbfgs.vecadd (view m y) (view m x) c) ∧
    (Pad m N (vecdiff z x y N) ∧ view m (vecdiff z x y N) = fun i => view m x i - view m y i) ∧
    (Pad m N (vecscale y c N) ∧ view m (vecscale y c N) = fun i => view m y i * c) ∧
    vecdot x y N = Lbfgs.vecdot (view m x) (view m y) ∧
    vec2norm sqrt x N = Lbfgs.vec2norm sqrt (view m x) ∧
    vec2norminv sqrt x N = 1 / Lbfgs.vec2norm sqrt (view m x) := by
  intro N
  obtain ⟨h8, hm, -⟩ := C140_round m
  have hN : 8 ∣ N := h8
  have hmN : m ≤ N := hm
  obtain ⟨-, e1, e2, e3, e4, e5, -⟩ := C140_vectors hN x y z c
  obtain ⟨-, e1', e2', -, -, -, -⟩ := C140_vectors hN x z z c
  have hd : ∀ y : Nat → K, vecdot x y N = Lbfgs.vecdot (view m x) (view m y) := by
    intro y
    rw [Lbfgs.vecdot_eq, vecdot_sum hN, ← Finset.sum_range_add_sum_Ico _ hmN,
      Finset.sum_eq_zero (s := Finset.Ico m N) fun k hk => by
        rw [hx k (Finset.mem_Ico.1 hk).1 (Finset.mem_Ico.1 hk).2, zero_mul], add_zero, Finset.sum_range]
    rfl
  have hv : ∀ i : Fin m, (i : Nat) < N := fun i => lt_of_lt_of_le i.2 hmN
  rw [e1', e2', e3, e4, e5]
  refine ⟨⟨fun k h1 h2 => ?_, funext fun i => ?_⟩, ⟨fun k h1 h2 => ?_, funext fun i => ?_⟩,
    ⟨fun k h1 h2 => ?_, funext fun i => ?_⟩, ⟨fun k h1 h2 => ?_, funext fun i => ?_⟩,
    ⟨fun k h1 h2 => ?_, funext fun i => ?_⟩, hd y, ?_, ?_⟩
  · simp [upTo, h2, hx k h1 h2]
  · simp [view, upTo, hv]
  · simp [upTo, h2, hx k h1 h2]
  · simp [view, upTo, hv]
  · simp [upTo, h2, hx k h1 h2, hy k h1 h2]
  · simp [view, upTo, hv, Lbfgs.vecadd]
  · simp [upTo, h2, hx k h1 h2, hy k h1 h2]
  · simp [view, upTo, hv]
  · simp [upTo, h2, hy k h1 h2]
  · simp [view, upTo, hv]
  · rw [vec2norm, hd x, Lbfgs.vec2norm]
  · rw [vec2norminv, hd x, Lbfgs.vec2norm]
end

/-- The test for opposite signs in the line search agrees with the portable one when neither number is zero. -/
theorem C140_sign_partial [Field K] [LinearOrder K] [IsStrictOrderedRing K] (x y : Dbl K) (hx : x.val ≠ 0)
    (hy : y.val ≠ 0) : fsigndiff x y = true ↔ Lbfgs.signDiff x.val y.val := by
  have hb : ∀ z : Dbl K, z.val ≠ 0 → z.bit = if z.val < 0 then 1 else 0 := by
    intro z hz
    simp [Dbl.bit, hz]
  unfold fsigndiff Lbfgs.signDiff Lbfgs.fabs
  rw [hb x hx, hb y hy]
  rcases lt_or_gt_of_ne hx with h1 | h1 <;> rcases lt_or_gt_of_ne hy with h2 | h2
  · have : y.val / -y.val = -1 := by rw [div_neg, div_self hy]
    simp [h1, h2, this, h1.le]
  · have : y.val / y.val = 1 := div_self hy
    simp [h1, not_lt.2 h2.le, this]
  · have : y.val / -y.val = -1 := by rw [div_neg, div_self hy]
    simp [h2, not_lt.2 h1.le, this, h1]
  · have : y.val / y.val = 1 := div_self hy
    simp [not_lt.2 h1.le, not_lt.2 h2.le, this, h1.le]

/-- Parameters with the penalty on the first five variables. -/
def parEnd : Lbfgs.Par ℚ :=
  { m := 6, epsilon := 1 / 100000, past := 0, delta := 0, maxIterations := 0, linesearch := Lbfgs.LS_WOLFE,
    maxLinesearch := 40, minStep := 0, maxStep := 1, ftol := 1 / 10000, wolfe := 9 / 10, gtol := 9 / 10, xtol := 0, c := 1,
    start := 0, stop := 5 }

/-- The two builds differ: when the derivative at the trial step is zero the SSE build says that the signs are opposite; an
    `orthantwise_end` beyond the number of variables is an error only in the portable build; and on a number of entries
    that is not a multiple of eight the routines write behind them. -/
theorem C140_negation :
    (fsigndiff (⟨0, false⟩ : Dbl ℚ) ⟨-1, false⟩ = true ∧ ¬ Lbfgs.signDiff (0 : ℚ) (-1)) ∧
    (Lbfgs.check 3 parEnd = some Lbfgs.ERR_ORTHANTWISE_END ∧ checkSse 3 parEnd = none) ∧
    vecset (fun _ => (0 : ℚ)) 1 5 7 = 1 := by
  refine ⟨by decide +kernel, by decide +kernel, ?_⟩
  unfold vecset
  rw [forBy, dif_pos (by omega), forBy, dif_neg (by omega)]
  simp [store, set1]

/-- Three variables, padded to eight. -/
example : Pad 3 (roundOut 3).toNat (fun k => if k < 3 then (k : ℚ) + 1 else 0) ∧
    vecdot (fun k => if k < 3 then (k : ℚ) + 1 else 0) (fun k => if k < 3 then (k : ℚ) + 1 else 0) 8 = 14 := by
  refine ⟨fun k h1 _ => by simp [not_lt.2 h1], ?_⟩
  rw [(C140_dot (by decide) _ _ id).1]
  decide +kernel

/-- Opposite and equal signs. -/
example : fsigndiff (⟨2, false⟩ : Dbl ℚ) ⟨-1, false⟩ = true ∧ fsigndiff (⟨-2, false⟩ : Dbl ℚ) ⟨-1, false⟩ = false := by
  decide +kernel

end Verif.Sse
