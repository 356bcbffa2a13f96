import Mathlib.Analysis.Complex.Basic
import Mathlib.Analysis.Calculus.FDeriv.Basic
import Mathlib.Analysis.SpecialFunctions.Exp
import Mathlib.Analysis.Real.Pi.Bounds

/-!
# The electric field of a Gaussian beam, by Maxwell's equations

The transverse plane is the complex plane: the point (x, y) is `x + i y`.
-/

namespace PyECLOUD

open Filter Topology

/-- Density of a unit charge per metre with Gaussian profiles of the sizes `sx`, `sy`. -/
noncomputable def gaussDensity (sx sy : ℝ) (z : ℂ) : ℝ :=
  Real.exp (-(z.re ^ 2 / (2 * sx ^ 2)) - z.im ^ 2 / (2 * sy ^ 2)) / (2 * Real.pi * sx * sy)

/-- `E = (Ex, Ey)` is the static field of the beam in free space: divergence by the density, no curl, no field at infinity. The derivative in
the direction `1` is the one in x, in the direction `I` the one in y. -/
structure IsBeamField (eps0 sx sy : ℝ) (E : ℂ → ℝ × ℝ) : Prop where
  diff : Differentiable ℝ E
  gauss : ∀ z, (fderiv ℝ E z 1).1 + (fderiv ℝ E z Complex.I).2 = gaussDensity sx sy z / eps0
  curl : ∀ z, (fderiv ℝ E z 1).2 - (fderiv ℝ E z Complex.I).1 = 0
  far : Tendsto E (cocompact ℂ) (𝓝 0)

end PyECLOUD
