import Mathlib.Analysis.SpecialFunctions.Trigonometric.Basic

/-!
# Relative error of the charge of a bunch in time steps
-/

namespace PyECLOUD

/-- Bound for the relative error of the charge of a Gaussian bunch of length `σ`, cut at ten lengths and sampled at the distance `h`:
sampling and cut. -/
noncomputable def chargeErr (σ h : ℝ) : ℝ :=
  2 * Real.exp (-2 * Real.pi ^ 2 * (σ / h) ^ 2) / (1 - Real.exp (-2 * Real.pi ^ 2 * (σ / h) ^ 2)) + Real.exp (-50) * (h / σ + 1 / 10)

end PyECLOUD
