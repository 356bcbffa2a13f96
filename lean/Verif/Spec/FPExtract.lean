import Mathlib.Algebra.Order.Field.Basic
import Mathlib.Algebra.BigOperators.Group.List.Basic

/-!
# What a draw between 0 and 1 decides

`de`, `dr` are the elastic and the rediffused yield; `excl` says that there are no rediffused electrons.
-/

namespace PyECLOUD

variable {K : Type} [Field K] [LinearOrder K]

/-- the electron is scattered back -/
def IsElastic (excl : Bool) (de u : K) : Prop := if excl then u ≤ de else u < de

/-- the electron is rediffused -/
def IsRediffused (excl : Bool) (de dr u : K) : Prop := excl = false ∧ de ≤ u ∧ u ≤ de + dr

/-- the electron is absorbed or makes true secondaries -/
def IsTrueEvent (excl : Bool) (de dr u : K) : Prop := if excl then de < u else de + dr < u

instance (excl : Bool) (de u : K) : Decidable (IsElastic excl de u) := by unfold IsElastic; infer_instance

instance (excl : Bool) (de dr u : K) : Decidable (IsRediffused excl de dr u) := by unfold IsRediffused; infer_instance

instance (excl : Bool) (de dr u : K) : Decidable (IsTrueEvent excl de dr u) := by unfold IsTrueEvent; infer_instance

end PyECLOUD
