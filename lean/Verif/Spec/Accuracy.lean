import Mathlib.Analysis.Calculus.Deriv.Basic

/-!
# Specification for C178: how curved a field is

The maps and tables PyECLOUD reads and computes are values at the nodes of a grid. How far the value used between the nodes can be
from the quantity the map was made from depends on how fast the slope of that quantity changes.
-/

namespace PyECLOUD

/-- between `a` and `b` the function has a slope, and the slope changes at most at the rate `M` -/
def CurvedBy (M a b : ℝ) (f : ℝ → ℝ) : Prop :=
  ∃ f1 f2 : ℝ → ℝ, ∀ x, a ≤ x → x ≤ b → HasDerivAt f (f1 x) x ∧ HasDerivAt f1 (f2 x) x ∧ |f2 x| ≤ M

/-- on the rectangle the quantity has slopes along both axes, which change along their axis at most at the rates `Mx` and `My` -/
def FieldCurvedBy (Mx My xa xb ya yb : ℝ) (f : ℝ → ℝ → ℝ) : Prop :=
  (∀ y, ya ≤ y → y ≤ yb → CurvedBy Mx xa xb (fun x => f x y)) ∧
  (∀ x, xa ≤ x → x ≤ xb → CurvedBy My ya yb (fun y => f x y))

end PyECLOUD
