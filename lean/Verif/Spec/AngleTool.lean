import Mathlib.Algebra.Order.Field.Basic
import Mathlib.Algebra.BigOperators.Group.Finset.Basic

/-!
# Area below a measured density
-/

namespace PyECLOUD

/-- Area below the curve that joins the values `D 0, D 1, …` at the distance `h`, up to the value `j`. -/
def areaTo {K : Type} [Field K] (h : K) (D : ℕ → K) (j : ℕ) : K := ∑ k ∈ Finset.range j, h * ((D k + D (k + 1)) / 2)

end PyECLOUD
