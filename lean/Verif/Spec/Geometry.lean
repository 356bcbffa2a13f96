import Mathlib.Algebra.Order.Field.Basic
import Mathlib.Data.List.GetD
import Mathlib.Data.Finset.Card
import Mathlib.Data.Finset.Range
import Mathlib.Algebra.Ring.Parity

/-!
# Plane geometry used to state the chamber properties
-/

namespace PyECLOUD

variable {K : Type} [Field K] [LinearOrder K]

/-- Twice the signed area of the triangle `a b p`: positive when `p` is strictly left of the line from `a` to `b`. -/
def cross3 (a b p : K × K) : K := (b.1 - a.1) * (p.2 - a.2) - (b.2 - a.2) * (p.1 - a.1)

/-- Vertex `i` of a closed polygon, counted cyclically. -/
def vtx (vs : List (K × K)) (i : ℕ) : K × K := vs.getD (i % vs.length) (0, 0)

/-- `p` is strictly left of every edge of the polygon. For a convex polygon given counter-clockwise this is its
interior. -/
def StrictlyInside (vs : List (K × K)) (p : K × K) : Prop :=
  ∀ i < vs.length, 0 < cross3 (vtx vs i) (vtx vs (i + 1)) p

/-- Every corner turns left or goes straight on. -/
def LeftTurns (vs : List (K × K)) : Prop :=
  ∀ i < vs.length, 0 ≤ cross3 (vtx vs i) (vtx vs (i + 1)) (vtx vs (i + 2))

/-- Every corner turns right or goes straight on. -/
def RightTurns (vs : List (K × K)) : Prop :=
  ∀ i < vs.length, cross3 (vtx vs i) (vtx vs (i + 1)) (vtx vs (i + 2)) ≤ 0

/-- The point at fraction `t` of the way from `a` to `b`. -/
def pointAt (a b : K × K) (t : K) : K × K := (a.1 + t * (b.1 - a.1), a.2 + t * (b.2 - a.2))

/-- `p` lies on the segment from `a` to `b`, ends included. -/
def OnSegment (a b p : K × K) : Prop := ∃ s : K, 0 ≤ s ∧ s ≤ 1 ∧ p = pointAt a b s

/-- `p` lies on edge `i` of the polygon. -/
def OnWall (vs : List (K × K)) (i : ℕ) (p : K × K) : Prop := OnSegment (vtx vs i) (vtx vs (i + 1)) p

/-- `(nx, ny)` is the unit normal of edge `i` pointing to its left. -/
def UnitNormal (vs : List (K × K)) (i : ℕ) (nx ny : K) : Prop :=
  nx * nx + ny * ny = 1 ∧
  nx * ((vtx vs (i + 1)).1 - (vtx vs i).1) + ny * ((vtx vs (i + 1)).2 - (vtx vs i).2) = 0 ∧
  0 < ((vtx vs (i + 1)).1 - (vtx vs i).1) * ny - ((vtx vs (i + 1)).2 - (vtx vs i).2) * nx

/-- `sq` behaves as a square root on positive numbers. -/
def IsSqrt (sq : K → K) : Prop := ∀ x, 0 < x → 0 < sq x ∧ sq x * sq x = x

/-- The horizontal ray from `p` to the right meets the edge from `a` to `b`. An end of the edge at the height of `p`
counts as being below it. -/
def RayCross (a b p : K × K) : Prop :=
  (a.2 ≤ p.2 ∧ p.2 < b.2 ∨ b.2 ≤ p.2 ∧ p.2 < a.2) ∧ ∃ s : K, (pointAt a b s).2 = p.2 ∧ p.1 < (pointAt a b s).1

open Classical in
/-- How many edges of the polygon the ray from `p` to the right meets. -/
noncomputable def rayCrossings (vs : List (K × K)) (p : K × K) : ℕ :=
  ((Finset.range vs.length).filter (fun i => RayCross (vtx vs i) (vtx vs (i + 1)) p)).card

/-- Every vertex other than the two ends of an edge is strictly left of it: a strictly convex polygon traversed once,
counter-clockwise. -/
def StrictlyConvex (vs : List (K × K)) : Prop :=
  ∀ i < vs.length, ∀ j < vs.length, j ≠ i → j ≠ (i + 1) % vs.length → 0 < cross3 (vtx vs i) (vtx vs (i + 1)) (vtx vs j)

end PyECLOUD
