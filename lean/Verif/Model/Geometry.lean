import Verif.Model.Impact

/-!
# Model of the polygonal and rectangular chambers

geom_impact_poly_fast_impact.py, geom_impact_poly_cython.pyx and geom_impact_rect_fast_impact.py. Coordinates are
elements of an ordered field, `sq` is `np.sqrt`. The counters `N_mp_impact`, `N_mp_corrected` and the error reports
are not modelled. All functions act on one point or one trajectory; the code applies them to arrays element by
element, and raises if any element does.
-/

namespace PyECLOUD

variable {K : Type} [Field K] [LinearOrder K]

/-- One edge with its start, end and normal: `Vx[ii], Vy[ii], Vx[ii+1], Vy[ii+1], Nx[ii], Ny[ii]`
(geom_impact_poly_fast_impact.py:122-139). -/
structure Edge (K : Type) where
  ax : K
  ay : K
  bx : K
  by' : K
  nx : K
  ny : K

/-- The edge between two vertices (geom_impact_poly_fast_impact.py:122-127): the normal is the direction turned by
90 degrees to the left, divided by the length. -/
def mkEdge (sq : K → K) (a b : K × K) : Edge K :=
  ⟨a.1, a.2, b.1, b.2, -(b.2 - a.2) / sq ((b.2 - a.2) * (b.2 - a.2) + (b.1 - a.1) * (b.1 - a.1)),
    (b.1 - a.1) / sq ((b.2 - a.2) * (b.2 - a.2) + (b.1 - a.1) * (b.1 - a.1))⟩

/-- Vertices with the first one appended (geom_impact_poly_fast_impact.py:106-113). -/
def closeList {α : Type} (vs : List α) : List α := vs ++ vs.take 1

/-- Consecutive pairs. -/
def pairs {α : Type} : List α → List (α × α)
  | a :: b :: l => (a, b) :: pairs (b :: l)
  | _ => []

/-- All edges of a polygon (geom_impact_poly_fast_impact.py:106-127). -/
def edgesOf (sq : K → K) (vs : List (K × K)) : List (Edge K) := (pairs (closeList vs)).map (fun q => mkEdge sq q.1 q.2)

/-- `self.area` (geom_impact_poly_fast_impact.py:115). -/
def polyArea (vs : List (K × K)) : K :=
  -(1 / 2) * ((pairs (closeList vs)).map (fun q => (q.2.2 + q.1.2) * (q.2.1 - q.1.1))).sum

/-- `is_convex` (geom_impact_poly_fast_impact.py:285-318): the loop over all corners with its two flags. -/
def convexLoop (vs : List (K × K)) : List ℕ → Bool → Bool → Bool
  | [], _, _ => true
  | a :: l, neg, pos =>
    let vA := vs.getD a (0, 0)
    let vB := vs.getD ((a + 1) % vs.length) (0, 0)
    let vC := vs.getD (((a + 1) % vs.length + 1) % vs.length) (0, 0)
    let cr := (vA.1 - vB.1) * (vC.2 - vB.2) - (vA.2 - vB.2) * (vC.1 - vB.1)
    let neg' := neg || decide (cr < 0)
    let pos' := pos || (!decide (cr < 0) && decide (0 < cr))
    if neg' && pos' then false else convexLoop vs l neg' pos'

def isConvex (vs : List (K × K)) : Bool := convexLoop vs (List.range vs.length) false false

/-- A polygonal chamber: vertices, edges, semi-axes of the fast-accept ellipse and the choice of the point test. -/
structure Poly (K : Type) where
  vs : List (K × K)
  edges : List (Edge K)
  cx : K
  cy : K
  assumeConvex : Bool

/-- `polyg_cham_geom_object.__init__` (geom_impact_poly_fast_impact.py:71-162), from the vertices on. The length test
of lines 99-100 is on the given vertices, before the first one is appended. -/
def mkPoly (sq : K → K) (vs : List (K × K)) (cx cy : K) (assumeConvex : Bool) : Except PyErr (Poly K) :=
  if (pairs vs).any (fun q => decide (sq ((q.2.1 - q.1.1) * (q.2.1 - q.1.1) + (q.2.2 - q.1.2) * (q.2.2 - q.1.2))
      < 1 / 10 ^ 9)) then .error .custom
  else if polyArea vs < 0 then .error .custom
  else if assumeConvex && !isConvex vs then .error .custom
  else .ok ⟨vs, edgesOf sq vs, cx, cy, assumeConvex⟩

/-- `rect_cham_geom_object` (geom_impact_rect_fast_impact.py:59-70) with the default `flag_assume_convex=True`. -/
def mkRect (sq : K → K) (xAper yAper : K) : Except PyErr (Poly K) :=
  mkPoly sq [(xAper, yAper), (-xAper, yAper), (-xAper, -yAper), (xAper, -yAper)] (99 / 100 * xAper) (99 / 100 * yAper) true

/-- Sign test of one edge (geom_impact_poly_cython.pyx:105): positive to the left of the edge. -/
def Edge.side (e : Edge K) (x y : K) : K := (y - e.ay) * (e.bx - e.ax) - (x - e.ax) * (e.by' - e.ay)

/-- Fast-accept test (geom_impact_poly_cython.pyx:98, 134). -/
def inEllipse (cx cy x y : K) : Bool := decide ((x / cx) ^ 2 + (y / cy) ^ 2 ≤ 1)

/-- `is_outside_convex` (geom_impact_poly_cython.pyx:79-110). -/
def outsideConvex (edges : List (Edge K)) (cx cy x y : K) : Bool :=
  !(inEllipse cx cy x y || edges.all (fun e => decide (0 < e.side x y)))

/-- One edge of the even-odd test (geom_impact_poly_cython.pyx:141-143) between vertex `ii` and the previous one. -/
def crossing (vi vj : K × K) (x y : K) : Bool :=
  (decide (y < vi.2) != decide (y < vj.2)) && decide (x < (vj.1 - vi.1) * (y - vi.2) / (vj.2 - vi.2) + vi.1)

/-- The loop of `is_outside_nonconvex` (geom_impact_poly_cython.pyx:138-146): `vj` is the previous vertex. -/
def evenOddLoop (x y : K) : List (K × K) → K × K → Bool → Bool
  | [], _, flag => flag
  | vi :: l, vj, flag => evenOddLoop x y l vi (if crossing vi vj x y then !flag else flag)

/-- `is_outside_nonconvex` (geom_impact_poly_cython.pyx:116-151); `jj` starts at the last vertex. -/
def outsideNonconvex (vs : List (K × K)) (cx cy x y : K) : Bool :=
  !(inEllipse cx cy x y || evenOddLoop x y vs (vs.getLastD (0, 0)) false)

/-- `is_outside` (geom_impact_poly_fast_impact.py:164-165). -/
def Poly.outside (P : Poly K) (x y : K) : Bool :=
  if P.assumeConvex then outsideConvex P.edges P.cx P.cy x y else outsideNonconvex P.vs P.cx P.cy x y

/-- Intersection of the trajectory with the line of an edge, if it falls on the edge: the fraction of the trajectory
(geom_impact_poly_cython.pyx:45-56). -/
def Edge.cross (e : Edge K) (xi yi xo yo : K) : Option K :=
  let den := (yo - yi) * (e.bx - e.ax) + (xi - xo) * (e.by' - e.ay)
  let tb := if den = 0 then -2 else ((yo - yi) * (xi - e.ax) + (xi - xo) * (yi - e.ay)) / den
  if 0 ≤ tb ∧ tb ≤ 1 then
    some ((e.nx * (e.ax - xi) + e.ny * (e.ay - yi)) / (e.nx * (xo - xi) + e.ny * (yo - yi)))
  else none

/-- The loop over the edges (geom_impact_poly_cython.pyx:35-60): `t` is `t_min_curr`, `f` is `i_found_curr`. -/
def searchLoop (xi yi xo yo : K) : List (Edge K) → ℕ → K → Option (ℕ × Edge K) → K × Option (ℕ × Edge K)
  | [], _, t, f => (t, f)
  | e :: l, ii, t, f =>
    match e.cross xi yi xo yo with
    | some tii => if 0 ≤ tii ∧ tii < t then searchLoop xi yi xo yo l (ii + 1) tii (some (ii, e))
                  else searchLoop xi yi xo yo l (ii + 1) t f
    | none => searchLoop xi yi xo yo l (ii + 1) t f

/-- `impact_point_and_normal` of geom_impact_poly_cython.pyx:14-73 for one trajectory. `i_found` is initialised with
zeros, and `z_int` is always 0. -/
def cyHit (edges : List (Edge K)) (resc : K) (a b : K × K × K) : Hit K :=
  let r := searchLoop a.1 a.2.1 b.1 b.2.1 edges 0 1 none
  let t := resc * r.1
  let x := t * b.1 + (1 - t) * a.1
  let y := t * b.2.1 + (1 - t) * a.2.1
  match r.2 with
  | some (i, e) => ⟨x, y, 0, e.nx, e.ny, i⟩
  | none => ⟨x, y, 0, 0, 0, 0⟩

/-- `impact_point_and_normal` of geom_impact_poly_fast_impact.py:168-283 for one trajectory. The branch for
`i_found < 0` (lines 178-220) is never entered because `i_found` is never negative. -/
def Poly.hit (P : Poly K) (resc : K) (robust : Bool) (a b : K × K × K) : Except PyErr (Hit K) :=
  let h := cyHit P.edges resc a b
  if robust then
    let h' := if P.outside h.x h.y then { h with x := a.1, y := a.2.1 } else h
    if P.outside h'.x h'.y then .error .custom else .ok h'
  else .ok h

/-- The chamber seen by the impact step, which calls with the default factor and mode
(impact_management_class.py:232-234). -/
def Poly.chamber (P : Poly K) (resc : K) (robust : Bool) : Chamber K := ⟨P.outside, P.hit resc robust⟩

/-- Body of the loop of `vertex_is_on_edge` (geom_impact_poly_fast_impact.py:324-340). On an edge of length zero the
divisions give an infinity and the comparison with 1 fails. -/
def onEdge (a b : K × K) (x y : K) : Bool :=
  let dx := b.1 - a.1
  let dy := b.2 - a.2
  if x = a.1 ∧ y = a.2 then true
  else if dx ≠ 0 ∧ dy ≠ 0 then
    decide ((x - a.1) / dx = (y - a.2) / dy ∧ 0 ≤ (x - a.1) / dx ∧ (x - a.1) / dx ≤ 1)
  else if dx = 0 ∧ x = a.1 then decide (dy ≠ 0 ∧ 0 ≤ (y - a.2) / dy ∧ (y - a.2) / dy ≤ 1)
  else if dy = 0 ∧ y = a.2 then decide (dx ≠ 0 ∧ 0 ≤ (x - a.1) / dx ∧ (x - a.1) / dx ≤ 1)
  else false

/-- `vertex_is_on_edge` (geom_impact_poly_fast_impact.py:320-342). -/
def vertexOnEdge (vs : List (K × K)) (x y : K) : Bool := (pairs (closeList vs)).any (fun q => onEdge q.1 q.2 x y)

/-- `vertexes_are_subset` (geom_impact_poly_fast_impact.py:344-352). -/
def vertexesAreSubset (vs ws : List (K × K)) : Bool :=
  (closeList ws).all (fun w => vertexOnEdge vs w.1 w.2) && (closeList vs).all (fun v => vertexOnEdge ws v.1 v.2)

end PyECLOUD
