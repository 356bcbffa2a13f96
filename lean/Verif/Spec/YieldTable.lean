import Mathlib.Data.Real.Sqrt

/-!
# A table of a curve
-/

namespace PyECLOUD

/-- Entry `k` of the column is the value of the curve at `e0 + k d`, up to `eps`. -/
def Tabulates (eps e0 d : ℝ) (n : ℕ) (f : ℝ → ℝ) (col : List ℝ) : Prop :=
  col.length = n ∧ ∀ (k : ℕ) (a : ℝ), col[k]? = some a → |a - f (e0 + (k : ℝ) * d)| ≤ eps

end PyECLOUD
