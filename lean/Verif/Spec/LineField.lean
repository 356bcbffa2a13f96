import Mathlib.Analysis.Real.Sqrt
import Mathlib.Analysis.SpecialFunctions.Exp
import Mathlib.Analysis.Real.Pi.Bounds

/-!
# Fields of an infinitely thin and of a round Gaussian beam, for a unit charge per metre
-/

namespace PyECLOUD

open Real

/-- Strength of the field of a line charge at the distance `r`. -/
noncomputable def lineStrength (eps0 r : ℝ) : ℝ := 1 / (2 * π * eps0 * r)

/-- Field of a line charge at the origin: it points away from it. -/
noncomputable def lineField (eps0 x y : ℝ) : ℝ × ℝ :=
  (x / √(x ^ 2 + y ^ 2) * lineStrength eps0 √(x ^ 2 + y ^ 2), y / √(x ^ 2 + y ^ 2) * lineStrength eps0 √(x ^ 2 + y ^ 2))

/-- Field of a round Gaussian beam of size `σ`, by Gauss's law: the line charge of the part of the beam that is closer to the
centre. -/
noncomputable def roundField (eps0 σ x y : ℝ) : ℝ × ℝ :=
  ((1 - exp (-(x ^ 2 + y ^ 2) / (2 * σ ^ 2))) * (lineField eps0 x y).1,
   (1 - exp (-(x ^ 2 + y ^ 2) / (2 * σ ^ 2))) * (lineField eps0 x y).2)

end PyECLOUD
