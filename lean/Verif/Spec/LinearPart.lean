import Mathlib.Algebra.Order.Field.Basic
import Mathlib.Algebra.BigOperators.Group.List.Basic

/-!
# Field maps with several slices
-/

namespace PyECLOUD

variable {K : Type} [Field K]

/-- The value of a map at slice `s`, node `(i, j)`. -/
def mapAt (l : List (List (List K))) (s i j : ℕ) : K := ((l.getD s []).getD i []).getD j 0

/-- Every slice has `nx` times `ny` nodes. -/
def HasShape (nx ny : ℕ) (l : List (List (List K))) : Prop := ∀ m ∈ l, m.length = nx ∧ ∀ r ∈ m, r.length = ny

/-- The points `(x, values(x))` with `|x|` at most `lim`. -/
def nearAxis [LinearOrder K] (x v : List K) (lim : K) : List (K × K) := (x.zip v).filter (fun p => decide (|p.1| ≤ lim))

end PyECLOUD
