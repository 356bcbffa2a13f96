import Mathlib.Algebra.Order.Field.Basic
import Mathlib.Algebra.BigOperators.Ring.Finset
import Mathlib.Order.Interval.Finset.Nat
import Mathlib.Algebra.Order.Ring.Abs

/-! # Specification vocabulary for the uniform grid -/

namespace PyECLOUD

variable {K : Type} [Field K] [LinearOrder K]

/-- coordinate of the (1-based) node `i` -/
def nodePos (bias d : K) (i : ℕ) : K := bias + ((i : K) - 1) * d

/-- the coordinate lies between the first node (included) and the last one (excluded) -/
def InAxis (n : ℕ) (bias d x : K) : Prop := bias ≤ x ∧ x < bias + ((n : K) - 1) * d

instance (n : ℕ) (bias d x : K) : Decidable (InAxis n bias d x) := inferInstanceAs (Decidable (_ ∧ _))

/-- the hat function of a node: 1 on the node, 0 from the neighbouring nodes on -/
def hat (bias d : K) (i : ℕ) (x : K) : K := max 0 (1 - |x - nodePos bias d i| / d)

/-- sum over all nodes of the grid -/
def gridSum (nx ny : ℕ) (f : ℕ → ℕ → K) : K := ∑ i ∈ Finset.Icc 1 nx, ∑ j ∈ Finset.Icc 1 ny, f i j

end PyECLOUD
