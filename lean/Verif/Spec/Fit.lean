import Verif.Model.Fit
/-!
Specification of what a fit returns, independent of how the model computes it.
-/
namespace Verif.Spec.Fit
open Verif.Py Verif.Fit Verif.Intersection

variable {K G S M RP : Type}

/-- Position of a multi-index in C order; `none` when it is out of range. -/
def flatIndex : List Nat → List Nat → Option Nat
  | [], [] => some 0
  | d :: ds, i :: is => if i < d then (flatIndex ds is).map (i * shapeSize ds + ·) else none
  | _, _ => none

/-- The float at a multi-index of an array: `HasAt a [b, i, j] x` means `a[b, i, j] == x`. -/
def HasAt (a : NDArr K) (idx : List Nat) (x : K) : Prop :=
  ∃ p, flatIndex a.shape idx = some p ∧ a.data[p]? = some (.f x)

/-- `k` successive draws from a generator: the splits and the generator afterwards. -/
inductive Draws (env : Env K G S M RP) (est : Bool) : G → List Split → G → Prop
  | nil (g : G) : Draws env est g [] g
  | cons {g g' g'' : G} {sp : Split} {sps : List Split} :
      env.draw est g = .ok (sp, g') → Draws env est g' sps g'' → Draws env est g (sp :: sps) g''

/-- The solvers return one coefficient per selected feature and output (shared supports) or one per
    feature and output (a support per coefficient). -/
def WellShaped (env : Env K G S M RP) : Prop :=
  0 < env.outDim ∧ ∀ mask tr m, env.fitEst mask tr = .ok m →
    (env.estCoef m).length =
      if env.shared then env.outDim * mask.count true else env.nFeat * env.outDim

/-- The support of a candidate as a mask; entries of a squeezed 1-d array count as masks of length
    one. -/
def maskAt : BArr → Nat → Option (List Bool)
  | .d0 _, _ => none
  | .d1 xs, i => xs[i]?.map fun b => [b]
  | .d2 rows, i => rows[i]?

/-- What a candidate (split, support) must leave in `estimates_` and `scores_`.

    * For a support without features: zeros, and the score of the intercept-only model fitted on
      the training rows.
    * Otherwise there is a model fitted on the training rows restricted to the support, whose score
      is `sc`.  With a support shared between outputs, the value for output `o` and feature `j` is
      zero if `j` is not in the support, else the model's coefficient for output `o` and the
      position of `j` among the features of the support.  With one support per coefficient, the
      row holds the model's coefficients. -/
inductive Candidate [Zero K] (env : Env K G S M RP) (sp : Split) (mask : List Bool) :
    (Nat → Nat → K) → K → Prop
  | empty {row : Nat → Nat → K} {sc : K} (m : M) :
      (∀ b ∈ mask, b = false) → env.fitEmpty sp.train = .ok m → env.scoreEmpty m sp = .ok sc →
      (∀ o < env.outDim, ∀ j < env.nFeat, row o j = 0) → Candidate env sp mask row sc
  | shared {row : Nat → Nat → K} {sc : K} (m : M) :
      env.shared = true → mask.length = env.nFeat → true ∈ mask →
      env.fitEst mask sp.train = .ok m → env.score m mask sp = .ok sc →
      (∀ o < env.outDim, ∀ j < env.nFeat, mask[j]? = some false → row o j = 0) →
      (∀ o < env.outDim, ∀ j < env.nFeat, mask[j]? = some true →
        (env.estCoef m)[o * mask.count true + (mask.take j).count true]? = some (row o j)) →
      Candidate env sp mask row sc
  | perCoef {row : Nat → Nat → K} {sc : K} (m : M) :
      env.shared = false → true ∈ mask →
      env.fitEst mask sp.train = .ok m → env.score m mask sp = .ok sc →
      (∀ o < env.outDim, ∀ j < env.nFeat, (env.estCoef m)[o * env.nFeat + j]? = some (row o j)) →
      Candidate env sp mask row sc

/-- `c` is the median of `xs` (as NumPy defines it): the middle value of the sorted list, or the
    mean of the two middle values. -/
def IsMedian [LinearOrder K] [Field K] (xs : List K) (c : K) : Prop :=
  ∃ s : List K, s.Perm xs ∧ s.Pairwise (· ≤ ·) ∧
    ((∃ k, s.length = 2 * k + 1 ∧ s[k]? = some c) ∨
     (∃ k x y, s.length = 2 * k + 2 ∧ s[k]? = some x ∧ s[k + 1]? = some y ∧ c = (x + y) / 2))

end Verif.Spec.Fit
