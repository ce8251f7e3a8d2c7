import Mathlib.Data.Real.Basic
/-!
Signal-to-noise ratio and standardised samples, written without the code of the generators (C127).
-/
namespace Verif.Spec.Synthetic

/-- Variance of a list: mean of the squares minus square of the mean. -/
noncomputable def variance (l : List ℝ) : ℝ :=
  (l.map (· ^ 2)).sum / l.length - (l.sum / l.length) ^ 2

/-- The linear predictor of a sample. -/
def predictor (c : ℝ) (x b : List ℝ) : ℝ := c + (List.zipWith (· * ·) x b).sum

/-- Pixel in row `r` and column `c` of image `s` in an array of shape `(32, 32, 256)` in C order. -/
def pixel {K : Type} (Y : Nat → K) (r c s : Nat) : K := Y (r * (32 * 256) + c * 256 + s)

end Verif.Spec.Synthetic
