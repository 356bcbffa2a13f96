import Verif.Spec.Regen
import Verif.Model.Regen

/-! # Specification: the random positions of a regeneration eventually fall inside the chamber -/

namespace PyECLOUD

variable {K : Type} [Field K] [LinearOrder K]

/-- Around the node `(cx, cy)`, the first random position of entry `i` of a pass or one of its replacements lies
inside the chamber. -/
def PassDraws.Settles (d : PassDraws K) (outside : K → K → Bool) (wx wy cx cy : K) (i : ℕ) : Prop :=
  ∃ q : K × K, (q = (d.x0 i, d.y0 i) ∨ ∃ r ∈ d.rounds, q = (r.1 i, r.2 i)) ∧
    outside (cx + wx * (q.1 - 1 / 2)) (cy + wy * (q.2 - 1 / 2)) = false

end PyECLOUD
