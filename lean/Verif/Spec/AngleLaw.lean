import Mathlib.Analysis.SpecialFunctions.Trigonometric.Basic
import Mathlib.Analysis.SpecialFunctions.Sqrt

/-! # Specification: directions of emitted electrons -/

namespace PyECLOUD

open Real

/-- modulus of a velocity -/
noncomputable def speedOf (v : ℝ × ℝ × ℝ) : ℝ := √(v.1 ^ 2 + v.2.1 ^ 2 + v.2.2 ^ 2)

/-- component along the normal `(nx, ny, 0)` -/
def normalOf (nx ny : ℝ) (v : ℝ × ℝ × ℝ) : ℝ := v.1 * nx + v.2.1 * ny

/-- component along the tangent `(ny, -nx, 0)` of the wall -/
def tangentOf (nx ny : ℝ) (v : ℝ × ℝ × ℝ) : ℝ := v.1 * ny - v.2.1 * nx

/-- the velocity makes an angle of at most `α` with the normal, and its part along the wall has an azimuth in `[0, β]`, counted
from the axis of the chamber towards the tangent -/
def InCone (nx ny α β : ℝ) (v : ℝ × ℝ × ℝ) : Prop :=
  speedOf v * cos α ≤ normalOf nx ny v ∧
  ∃ φ, 0 ≤ φ ∧ φ ≤ β ∧ tangentOf nx ny v = √(tangentOf nx ny v ^ 2 + v.2.2 ^ 2) * sin φ ∧
    v.2.2 = √(tangentOf nx ny v ^ 2 + v.2.2 ^ 2) * cos φ

end PyECLOUD
