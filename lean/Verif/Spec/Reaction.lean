import Verif.Spec.Grid

/-!
# Specification for C179: actions and reactions

The solver that turns charges at the nodes into fields at the nodes is not part of PyECLOUD (it is PyPIC). What is asked of it is stated here.
-/

namespace PyECLOUD

variable {K : Type} [Field K]

/-- the solver is linear in the charges, and the field of a charge at one node seen at another is opposite to the field of the same charge at the other
node seen at the first, as in free space -/
def EqualOpposite (nx ny : ℕ) (solver : (ℕ → ℕ → K) → ℕ → ℕ → K) : Prop :=
  ∃ G : ℕ × ℕ → ℕ × ℕ → K, (∀ k l, G k l = -G l k) ∧ ∀ rho i j, solver rho i j = gridSum nx ny (fun a b => G (i, j) (a, b) * rho a b)

/-- the force a field exerts on charges at given points -/
def forceOn (field : K → K → K) (charges : List (K × K × K)) : K := (charges.map (fun p => p.2.2 * field p.1 p.2.1)).sum

end PyECLOUD
