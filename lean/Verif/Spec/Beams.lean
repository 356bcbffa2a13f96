import Verif.Model.BeamField

/-! Vocabulary for the properties of beam fields, several beams and electromagnetic space charge. -/

namespace PyECLOUD

/-- The value of a numpy float or array at particle `i` (a float has the same value at all particles). -/
def NpVal.at {K : Type} [Zero K] : NpVal K → ℕ → K
  | .scalar v, _ => v
  | .array l, i => l.getD i 0

/-- The field of one beam at a point according to the documentation: line density times charge times the field map of
a unit line charge, if the line density exceeds the threshold. -/
def beamTerm {K : Type} [Field K] [LinearOrder K] (b : BeamNow K) (mapped : K) : K :=
  if b.lamTh < b.lam then b.charge * b.lam * mapped else 0

/-- The horizontal and vertical component of the map of a beam at a point. -/
def BeamMap.exAt {K : Type} [Field K] [LinearOrder K] [FloorRing K] (m : BeamMap K) (p : K × K) : K :=
  intField m.nx m.ny m.xmin m.ymin m.dx m.dy m.ex p.1 p.2
def BeamMap.eyAt {K : Type} [Field K] [LinearOrder K] [FloorRing K] (m : BeamMap K) (p : K × K) : K :=
  intField m.nx m.ny m.xmin m.ymin m.dx m.dy m.ey p.1 p.2

/-- The components at a point of the field that a beam with unit line charge has. -/
def BeamSrc.exAt {K : Type} [Field K] [LinearOrder K] [FloorRing K] : BeamSrc K → K × K → K
  | .map m, p => m.exAt p
  | .pic g, p => (g p.1 p.2).1
def BeamSrc.eyAt {K : Type} [Field K] [LinearOrder K] [FloorRing K] : BeamSrc K → K × K → K
  | .map m, p => m.eyAt p
  | .pic g, p => (g p.1 p.2).2

/-- The potentials that the clouds of one recomputation create: the solution for the sum of all the deposits. -/
def potQ {G P : Type} [AddMonoid G] (sol : G → P) (ds : List (EmDep G)) : P := sol (ds.map (fun d => d.q)).sum
def potX {G P : Type} [AddMonoid G] (sol : G → P) (ds : List (EmDep G)) : P := sol (ds.map (fun d => d.jx)).sum
def potY {G P : Type} [AddMonoid G] (sol : G → P) (ds : List (EmDep G)) : P := sol (ds.map (fun d => d.jy)).sum

/-- The fields of the potentials `phi`, `ax`, `ay` whose vector part changes at the rate `(ux, uy)` at the point `p`:
`E = -grad phi - dA/dt`, longitudinal `B = curl A`, and the transverse `B` of a pattern travelling with `beta c`. -/
def fieldsOf {P K : Type} [Field K] (g : EmGather P K) (beta c : K) (phi ax ay : P) (ux uy : K) (p : K × K) :
    K × K × K × K × K :=
  (g.ex phi p - ux, g.ey phi p - uy, uy / (beta * c), -ux / (beta * c), g.ey ax p - g.ex ay p)

end PyECLOUD
