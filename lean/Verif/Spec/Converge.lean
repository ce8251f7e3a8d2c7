import Verif.Spec.LbfgsDir
/-!
Specifications for the convergence of the minimiser on strongly convex, smooth objectives.
-/
namespace Verif.Lbfgs.Spec

variable {n : Nat} {K : Type} [Field K] [LinearOrder K] [IsStrictOrderedRing K]

/-- The gradient `G` is strongly monotone with constant `mu` (the objective is strongly convex) and
    Lipschitz with constant `L` (the objective is smooth). -/
structure StrongSmooth (G : (Fin n → K) → Fin n → K) (mu L : K) : Prop where
  mu_pos : 0 < mu
  L_pos : 0 < L
  mono : ∀ x y, mu * dot (fun i => x i - y i) (fun i => x i - y i) ≤
    dot (fun i => G x i - G y i) (fun i => x i - y i)
  lip : ∀ x y, dot (fun i => G x i - G y i) (fun i => G x i - G y i) ≤
    L ^ 2 * dot (fun i => x i - y i) (fun i => x i - y i)

/-- A square root on the non-negative numbers. -/
def IsSqrt (sqrt : K → K) : Prop := ∀ v, 0 ≤ v → 0 ≤ sqrt v ∧ sqrt v * sqrt v = v

/-- A lower bound for the eigenvalues of the BFGS matrix of `j` pairs. -/
def lower (mu L : K) (j : Nat) : K := mu / (L ^ 2 * (j + 1))

/-- An upper bound for the eigenvalues of the BFGS matrix of `j` pairs. -/
def upper (mu L : K) : Nat → K
  | 0 => 1 / mu
  | j + 1 => (L / mu) ^ 2 * upper mu L j + 1 / mu

/-- A lower bound for the slope of the search direction, relative to the squared norm of the gradient,
    with `m` pairs. -/
def descent (mu L : K) (m : Nat) : K := min 1 (lower mu L m)

/-- The longest step length that is certain not to overshoot with `m` pairs, where `c` is the coefficient
    of the line search (of the curvature condition, or of sufficient decrease). -/
def reachStep (c mu L : K) (m : Nat) : K := (1 - c) / (L * max 1 (upper mu L m))

end Verif.Lbfgs.Spec
