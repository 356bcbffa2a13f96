import Mathlib.Algebra.Order.Field.Basic
import Mathlib.Algebra.BigOperators.Group.List.Basic

/-!
# Measured curves and straight lines through points
-/

namespace PyECLOUD

variable {K : Type} [Field K] [LinearOrder K]

/-- The point (x, v) lies on the curve that joins the samples by straight lines. -/
def OnCurve (s : List (K × K)) (x v : K) : Prop :=
  ∃ (j : ℕ) (a b : K × K) (lam : K), s[j]? = some a ∧ s[j + 1]? = some b ∧ 0 ≤ lam ∧ lam ≤ 1 ∧
    x = (1 - lam) * a.1 + lam * b.1 ∧ v = (1 - lam) * a.2 + lam * b.2

/-- The curve rises or falls by at most `L` per unit. -/
def SlopeAtMost (L : K) (s : List (K × K)) : Prop :=
  ∀ (j : ℕ) (a b : K × K), s[j]? = some a → s[j + 1]? = some b → |b.2 - a.2| ≤ L * (b.1 - a.1)

/-- Sum of the squared distances of points from a line. -/
def misfit (pts : List (K × K)) (g c : K) : K := (pts.map (fun p => (p.2 - (g * p.1 + c)) ^ 2)).sum

end PyECLOUD
