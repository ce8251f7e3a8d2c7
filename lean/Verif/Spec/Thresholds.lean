import Verif.Model.Thresholds
/-!
Independent specification of the stability-selection thresholds (C01, C02): what the user
asked for, entry by entry, and what it means for an integer to be the threshold of an entry.
Only the input types of the model are used.
-/
namespace Verif.Thresholds.Spec

/-- One requested threshold: a proportion of the bootstraps or a number of bootstraps. -/
inductive Entry where
  | proportion (f : PyFloat)
  | count (z : Int)

/-- `Asks a es`: the argument `a` is a supported value asking for the entries `es`. -/
inductive Asks : Arg → List Entry → Prop
  | float (f) : Asks (.float f) [.proportion f]
  | int (z) : Asks (.int z) [.count z]
  | listFloat (fs : List PyFloat) : Asks (.list (fs.map .float)) (fs.map .proportion)
  | listInt (zs : List Int) : Asks (.list (zs.map .int)) (zs.map .count)
  | arrFloat (fs : List PyFloat) : Asks (.arrFloat fs) (fs.map .proportion)
  | arrInt (zs : List Int) : Asks (.arrInt zs) (zs.map .count)

/-- `Is S n e t`: the integer `t` is an admissible threshold (between 1 and `n`) for the
    entry `e`: the count itself, or the integer part of the floating-point product of a finite
    proportion with `n`. -/
def Is (S : FloatSem) (n : Nat) (e : Entry) (t : Int) : Prop :=
  1 ≤ t ∧ t ≤ n ∧
    match e with
    | .count z => t = z
    | .proportion f =>
        ∃ p q : ℚ, f = .fin p ∧ S.fl (p * n) = .fin q ∧ (t : ℚ) ≤ q ∧ q < t + 1

/-- What is assumed of floating point: multiplication is exact when the exact result is an
    integer in range; the C cast truncates finite values and sends the special values to
    something outside `1..n` (INT_MIN, 0 or INT_MAX depending on the platform). -/
structure Sane (S : FloatSem) (n : Nat) : Prop where
  exact : ∀ k : Nat, k ≤ n → S.fl (k : ℚ) = .fin (k : ℚ)
  cast_fin : ∀ q : ℚ, S.cast (.fin q) = if 0 ≤ q then ⌊q⌋ else ⌈q⌉
  cast_special : ∀ x, (∀ q, x ≠ .fin q) → S.cast x < 1 ∨ (n : Int) < S.cast x

end Verif.Thresholds.Spec
