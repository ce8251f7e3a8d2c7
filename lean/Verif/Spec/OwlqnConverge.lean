import Verif.Spec.Converge
/-!
Specifications for the convergence of the minimiser with an L1 penalty.
-/
namespace Verif.Lbfgs.Spec

variable {K : Type} [Field K] [LinearOrder K] [IsStrictOrderedRing K]

/-- A bound for the length of the search direction, relative to the norm of the slope, with `m` pairs. -/
def stretch (mu L : K) (m : Nat) : K := max 1 (upper mu L m)

/-- In `n` variables: the shortest step length that can be accepted while the coordinate with the largest
    share of the slope is not set to zero. -/
def owlLength (ftol mu L : K) (m n : Nat) : K :=
  min 1 ((1 - ftol) * descent mu L m / (4 * n * L * stretch mu L m ^ 2))

/-- The decrease of the penalised objective in such an iteration. -/
def owlGain (ftol eps mu L : K) (m n : Nat) : K :=
  ftol * owlLength ftol mu L m n * (descent mu L m * eps ^ 2 / n)

/-- A lower bound for the slope in that coordinate. -/
def owlSlope (eps mu L : K) (m n : Nat) : K := descent mu L m * eps / (n * stretch mu L m)

/-- The decrease of the penalised objective in any `n + 1` consecutive iterations after the first. -/
def owlDecrease (ftol eps mu L : K) (m n : Nat) : K :=
  min (owlGain ftol eps mu L m n)
    (ftol * mu / 4 * owlSlope eps mu L m n ^ 2 / (L ^ 2 * (n + 1)))

/-- The decrease of the penalised objective, with at most `N` trials in a search, in an iteration in which the
    penalised coordinates that are set to zero have at most half of the slope. -/
def rangeGain (ftol eps mu L : K) (m N : Nat) : K := ftol / 2 ^ N * (descent mu L m * eps ^ 2 / 2)

/-- With any range of penalised variables and at most `N` trials in a search: the decrease of the penalised
    objective in any `n + 1` consecutive iterations after the first. -/
def rangeDecrease (ftol eps mu L : K) (m n N : Nat) : K :=
  min (rangeGain ftol eps mu L m N)
    (ftol * mu / 4 * (owlSlope eps mu L m n / 2) ^ 2 / (L ^ 2 * (n + 1)))

end Verif.Lbfgs.Spec
