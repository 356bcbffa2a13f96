import Mathlib.Analysis.SpecialFunctions.Gaussian.FourierTransform

/-!
# The complex error function

`w(z) = exp(-z²) erfc(-iz) = 2/√π ∫₀^∞ exp(-u² + 2iuz) du`.
-/

namespace PyECLOUD

open MeasureTheory Set

noncomputable def faddeeva (z : ℂ) : ℂ :=
  2 / (√Real.pi : ℝ) * ∫ u in Ioi (0 : ℝ), Complex.exp (-(u : ℂ) ^ 2 + 2 * Complex.I * u * z)

end PyECLOUD
