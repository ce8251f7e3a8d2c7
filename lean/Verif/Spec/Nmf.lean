import Mathlib.Algebra.BigOperators.Ring.Finset
import Mathlib.Analysis.Real.Sqrt
/-!
What the NMF decomposition promises, written without its code.
-/
namespace Verif.Spec.Nmf

/-- The pairs of distinct bootstraps. -/
def bootPairs (n : Nat) : Finset (Nat × Nat) :=
  ((Finset.range n) ×ˢ (Finset.range n)).filter fun p => p.1 < p.2

/-- Average over the pairs of bootstraps. -/
def average {K : Type} [Field K] (n : Nat) (f : Nat → Nat → K) : K :=
  (∑ p ∈ bootPairs n, f p.1 p.2) / (bootPairs n).card

/-- A basis with nonnegative entries. -/
def Nonneg {d : Nat} (r : Fin d → ℝ) : Prop := ∀ j, 0 ≤ r j

/-- A consensus method that combines nonnegative rows into a nonnegative row. -/
def KeepsNonneg {d : Nat} (f : List (Fin d → ℝ) → Fin d → ℝ) : Prop :=
  ∀ rows, (∀ r ∈ rows, Nonneg r) → Nonneg (f rows)

/-- The labels are `0, ..., n-1` and `-1` for noise (what DBSCAN returns). -/
def Contiguous (labels : List Int) (n : Nat) : Prop :=
  ∀ c : Int, c ≠ -1 → (c ∈ labels ↔ 0 ≤ c ∧ c < n)

/-- `rows` are the members of cluster `c`, in order: the bases at the positions labelled `c`. -/
def Members {α : Type} (H : List α) (labels : List Int) (c : Int) (rows : List α) : Prop :=
  ∃ idx : List Nat, idx.Pairwise (· < ·) ∧ (∀ i, i ∈ idx ↔ labels[i]? = some c) ∧
    rows.map some = idx.map fun i => H[i]?

/-- Squared distance of a sample to the combination of the components with weights `w`. -/
noncomputable def sqResidual {d : Nat} (H : List (Fin d → ℝ)) (x : Fin d → ℝ) (w : List ℝ) : ℝ :=
  ∑ j, (x j - ((w.zip H).map fun p => p.1 * p.2 j).sum) ^ 2

/-- A solver of the nonnegative least squares problem. -/
def IsNnls {d : Nat} (f : List (Fin d → ℝ) → (Fin d → ℝ) → List ℝ) : Prop :=
  ∀ H x, (f H x).length = H.length ∧ (∀ v ∈ f H x, 0 ≤ v) ∧
    ∀ w : List ℝ, w.length = H.length → (∀ v ∈ w, 0 ≤ v) → sqResidual H x (f H x) ≤ sqResidual H x w

end Verif.Spec.Nmf
