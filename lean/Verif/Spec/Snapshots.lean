import Verif.Model.Snapshots

/-!
# Specification vocabulary: snapshots at requested times
-/

namespace PyECLOUD

/-- Steps divided at the snapshots: in the `k`-th group (counting from `j`) the last step is the first one that is eligible for
request number `k`; the steps of `opn` come after the last snapshot and none is eligible for the next request. -/
def Watched {E : Type} (elig : ℕ → E → Prop) : ℕ → List (List E × E) → List E → Prop
  | j, [], opn => ∀ e ∈ opn, ¬ elig j e
  | j, g :: gs, opn => (∀ e ∈ g.1, ¬ elig j e) ∧ elig j g.2 ∧ Watched elig (j + 1) gs opn

end PyECLOUD
