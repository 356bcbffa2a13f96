import Mathlib.Algebra.Order.Floor.Ring

/-!
# Specification of stochastic rounding

A physical request of `x` macroparticles is rounded down, or up with a probability equal to the fractional part.
-/

namespace PyECLOUD

/-- the number of macroparticles created for a request of `x`, given the uniform random number `u` -/
def roundedCount {K : Type} [Field K] [LinearOrder K] [FloorRing K] (x u : K) : ℤ :=
  if u < Int.fract x then ⌊x⌋ + 1 else ⌊x⌋

end PyECLOUD
