import Verif.Model.Geometry
import Verif.Model.Np

/-!
# Model of the polygonal chamber without compiled code

geom_impact_poly.py: the class with the interface of geom_impact_poly_fast_impact.py whose point test and impact
search are written with numpy masks. The impact search is modelled for one trajectory: every array operation of the
search acts element by element. The counters and the error reports are not modelled.
-/

namespace PyECLOUD

variable {K : Type} [Field K] [LinearOrder K]

/-- `__init__` (geom_impact_poly.py:69-107), from the vertices on. Nothing is checked. The result is always used with
the point test for convex polygons. -/
def mkPolyNp (sq : K → K) (vs : List (K × K)) (cx cy : K) : Poly K := ⟨vs, edgesOf sq vs, cx, cy, true⟩

/-- One pass of the loop over the edges (geom_impact_poly.py:140-142): the points still taken as inside are tested
against the edge. -/
def npEdgePass (chk : List (K × K)) (fi : List Bool) (e : Edge K) : List Bool :=
  maskPut fi fi ((maskSel chk fi).map (fun p => decide (0 < e.side p.1 p.2)))

/-- `is_outside` (geom_impact_poly.py:130-145) on arrays of points. The test `flag_outside.any()` only skips work. -/
def npOutside (P : Poly K) (pts : List (K × K)) : List Bool :=
  let fo := pts.map (fun p => !inEllipse P.cx P.cy p.1 p.2)
  let chk := maskSel pts fo
  maskPut fo fo ((P.edges.foldl (npEdgePass chk) (chk.map (fun _ => true))).map (fun b => !b))

/-- `t_curr` (geom_impact_poly.py:157-158). A vanishing denominator gives an infinity or no number, and then every
comparison of lines 160 and 165 fails. -/
def Edge.lineT (e : Edge K) (xi yi xo yo : K) : Option K :=
  let den := e.nx * (xo - xi) + e.ny * (yo - yi)
  if den = 0 then none else some ((e.nx * (e.ax - xi) + e.ny * (e.ay - yi)) / den)

/-- The test on `t_border` (geom_impact_poly.py:168-170). A vanishing denominator fails it. -/
def Edge.borderOk (e : Edge K) (xi yi xo yo : K) : Bool :=
  let den := (yo - yi) * (e.bx - e.ax) + (xi - xo) * (e.by' - e.ay)
  let tb := ((yo - yi) * (xi - e.ax) + (xi - xo) * (yi - e.ay)) / den
  decide (den ≠ 0 ∧ 0 ≤ tb ∧ tb ≤ 1)

/-- State of the search of one trajectory: `t_min`, `mask_found`, `i_found`. -/
structure NpSearch (K : Type) where
  t : K
  found : Bool
  i : ℤ

/-- Body of the loop over the edges (geom_impact_poly.py:157-171) for one trajectory. -/
def npStep (xi yi xo yo : K) (s : NpSearch K) (ii : ℕ) (e : Edge K) : NpSearch K :=
  match e.lineT xi yi xo yo with
  | none => s
  | some tc =>
    let s' : NpSearch K := if 0 ≤ tc ∧ tc < s.t then ⟨tc, true, ii⟩ else s
    if tc = s'.t ∧ e.borderOk xi yi xo yo = true then { s' with i := ii } else s'

/-- The loop over the edges (geom_impact_poly.py:156-171). -/
def npLoop (xi yi xo yo : K) : List (Edge K) → ℕ → NpSearch K → NpSearch K
  | [], _, s => s
  | e :: l, ii, s => npLoop xi yi xo yo l (ii + 1) (npStep xi yi xo yo s ii e)

/-- The point and normal before the robust check (geom_impact_poly.py:147-203). `ell` gives the normal taken when no
edge is found (lines 189-203), computed from the ellipse. `take` with a found index returns the normal of that edge. -/
def npHit (ell : K → K → K × K) (edges : List (Edge K)) (resc : K) (a b : K × K × K) : Hit K :=
  let s := npLoop a.1 a.2.1 b.1 b.2.1 edges 0 ⟨2, false, -1⟩
  let t := resc * s.t
  if s.found then
    let e := edges.getD s.i.toNat ⟨0, 0, 0, 0, 0, 0⟩
    ⟨t * b.1 + (1 - t) * a.1, t * b.2.1 + (1 - t) * a.2.1, 0, e.nx, e.ny, s.i⟩
  else ⟨a.1, a.2.1, 0, (ell a.1 a.2.1).1, (ell a.1 a.2.1).2, s.i⟩

/-- Whether one point is outside: `is_outside` on arrays of one element. -/
def Poly.npOut1 (P : Poly K) (x y : K) : Bool := (npOutside P [(x, y)]).getD 0 false

/-- `impact_point_and_normal` (geom_impact_poly.py:147-291) for one trajectory. -/
def Poly.npHitFull (P : Poly K) (ell : K → K → K × K) (resc : K) (robust : Bool) (a b : K × K × K) :
    Except PyErr (Hit K) :=
  let h := npHit ell P.edges resc a b
  if robust then
    let h' := if P.npOut1 h.x h.y then { h with x := a.1, y := a.2.1 } else h
    if P.npOut1 h'.x h'.y then .error .valueError else .ok h'
  else .ok h

end PyECLOUD
