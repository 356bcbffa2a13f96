import Mathlib.Algebra.Order.Field.Basic

/-!
# Specification for C180: the charge of a beam profile
-/

namespace PyECLOUD

variable {K : Type} [Field K]

/-- Line density times duration, summed over the time steps of a profile given by its times and line densities: every time step has the line density of its
first time. -/
def profileCharge : List (K × K) → K
  | a :: b :: l => a.2 * (b.1 - a.1) + profileCharge (b :: l)
  | _ => 0

end PyECLOUD
