import Verif.Model.CrossIon

/-!
# Construction of the cross ionisation and extraction of the cross sections

`Ionization_Process.__init__` (cross_ionization.py:62-147), `Cross_Ionization.__init__` (297-343) and `_extract_sigma`
(431-492). Cloud names are numbers. Not modelled: reading of the cross-section file (the two arrays are the input), the
name of the file with the extracted curves, printing.
-/

namespace PyECLOUD

variable {K : Type} [Field K] [LinearOrder K]

/-- The definition of a process in `cross_ion_definitions`; optional keys as `Option`. -/
structure ProcDef (K : Type) where
  dens : K
  eInit : K
  extract : Option Bool
  equally : Option Bool
  products : List ℕ
  energy : List K
  sigma : List K

/-- `Ionization_Process.__init__` (cross_ionization.py:62-147): the process and its `extract_sigma`. A product that is not the name of a
cloud fails an assertion. -/
def mkProc [FloorRing K] (lg : K → K) (names : List ℕ) (area : K) (d : ProcDef K) : Except PyErr (Proc K × Bool) :=
  if d.products.all (fun p => decide (p ∈ names)) then
    match mkXTable lg d.energy d.sigma with
    | .error e => .error e
    | .ok T => .ok (⟨d.dens, d.dens * area, area, d.eInit, d.equally.getD false, d.products, T⟩, d.extract.getD true)
  else .error .assertion

/-- The processes of one projectile. -/
def mkProcs [FloorRing K] (lg : K → K) (names : List ℕ) (area : K) : List (ProcDef K) → Except PyErr (List (Proc K × Bool))
  | [] => .ok []
  | d :: l =>
    match mkProc lg names area d with
    | .error e => .error e
    | .ok p =>
      match mkProcs lg names area l with
      | .error e => .error e
      | .ok ps => .ok (p :: ps)

/-- The loop over the projectiles (cross_ionization.py:311-330). -/
def mkProjs [FloorRing K] (lg : K → K) (names : List ℕ) (area : K) :
    List (ℕ × List (ProcDef K)) → Except PyErr (List (ℕ × List (Proc K × Bool)))
  | [] => .ok []
  | q :: l =>
    if q.1 ∈ names then
      match mkProcs lg names area q.2 with
      | .error e => .error e
      | .ok ps =>
        match mkProjs lg names area l with
        | .error e => .error e
        | .ok r => .ok ((q.1, ps) :: r)
    else .error .assertion

/-- The curves saved for one energy of one process: the interpolated cross section and, per product, the one estimated
from the generated macroparticles, both in cm². -/
structure SigmaRow (K : Type) where
  interp : K
  sampled : ℕ → K

/-- One energy of `_extract_sigma` (cross_ionization.py:468-489): `nRep` projectiles of the reference size at the origin, all with the
speed of that energy. `generate` acts on the process object, which is returned. -/
def Proc.extractRow [FloorRing K] (pr : Proc K) (sq lg : K → K) (qe dt : K) (cs : List (XCloud K)) (mass ref : K)
    (nRep : ℕ) (e : K) (d : XDraws K) : Except PyErr (Proc K × SigmaRow K) :=
  match pr.table.getSigma lg e with
  | .error x => .error x
  | .ok s =>
    let v := sq (2 * e * qe / mass)
    let nel := List.replicate nRep (1 * ref)
    let proj : List (Particle K) := List.replicate nRep (fun f => if f = .nel then 1 * ref else 0)
    match pr.generate sq lg qe dt cs mass proj (List.replicate nRep v) false d with
    | .error x => .error x
    | .ok (pr', info, _) =>
      .ok (pr', ⟨s * 10 ^ 4, fun nm =>
        (if 0 < v then ((info nm).arr .nel).sum / pr'.dens / v / dt / nel.sum else 0) * 10 ^ 4⟩)

/-- All energies (cross_ionization.py:463-489). -/
def Proc.extractSigma [FloorRing K] (sq lg : K → K) (qe dt : K) (cs : List (XCloud K)) (mass ref : K)
    (nRep : ℕ) (d : ℕ → XDraws K) : ℕ → List K → Proc K → Except PyErr (Proc K × List (SigmaRow K))
  | _, [], pr => .ok (pr, [])
  | i, e :: l, pr =>
    match pr.extractRow sq lg qe dt cs mass ref nRep e (d i) with
    | .error x => .error x
    | .ok (pr', r) =>
      match Proc.extractSigma sq lg qe dt cs mass ref nRep d (i + 1) l pr' with
      | .error x => .error x
      | .ok (pr'', rs) => .ok (pr'', r :: rs)

/-- The processes of one projectile (cross_ionization.py:450-492): those with `extract_sigma` are run and their curves saved. -/
def extractProcs [FloorRing K] (sq lg : K → K) (qe dt : K) (cs : List (XCloud K)) (mass ref : K) (nRep : ℕ) (es : List K)
    (d : ℕ → ℕ → XDraws K) : ℕ → List (Proc K × Bool) → Except PyErr (List (Proc K × Bool) × List (List (SigmaRow K)))
  | _, [] => .ok ([], [])
  | i, (pr, false) :: l =>
    match extractProcs sq lg qe dt cs mass ref nRep es d (i + 1) l with
    | .error e => .error e
    | .ok (ps, rs) => .ok ((pr, false) :: ps, rs)
  | i, (pr, true) :: l =>
    match Proc.extractSigma sq lg qe dt cs mass ref nRep (d i) 0 es pr with
    | .error e => .error e
    | .ok (pr', r) =>
      match extractProcs sq lg qe dt cs mass ref nRep es d (i + 1) l with
      | .error e => .error e
      | .ok (ps, rs) => .ok ((pr', true) :: ps, r :: rs)

/-- The loop over the projectiles of `_extract_sigma` (cross_ionization.py:442-492). -/
def extractAll [FloorRing K] (sq lg : K → K) (qe dt : K) (cs : List (XCloud K)) (nRep : ℕ) (es : List K)
    (d : ℕ → ℕ → ℕ → XDraws K) : ℕ → List (ℕ × List (Proc K × Bool)) →
    Except PyErr (List (ℕ × List (Proc K × Bool)) × List (List (SigmaRow K)))
  | _, [] => .ok ([], [])
  | i, q :: l =>
    match cloudGet cs q.1 with
    | .error e => .error e
    | .ok c =>
      match extractProcs sq lg qe dt cs c.mass c.mps.ref nRep es (d i) 0 q.2 with
      | .error e => .error e
      | .ok (ps, a) =>
        match extractAll sq lg qe dt cs nRep es d (i + 1) l with
        | .error e => .error e
        | .ok (r, b) => .ok ((q.1, ps) :: r, a ++ b)

/-- `Cross_Ionization.__init__` (cross_ionization.py:297-343): the state and the extracted curves. -/
def mkCross [FloorRing K] (sq lg : K → K) (qe dt : K) (cs : List (XCloud K)) (area : K)
    (defs : List (ℕ × List (ProcDef K))) (nRep : ℕ) (es : List K) (d : ℕ → ℕ → ℕ → XDraws K) :
    Except PyErr (XState K × List (List (SigmaRow K))) :=
  match mkProjs lg (cs.map (fun c => c.name)) area defs with
  | .error e => .error e
  | .ok ps =>
    match extractAll sq lg qe dt cs nRep es d 0 ps with
    | .error e => .error e
    | .ok (ps', rows) =>
      .ok (⟨ps'.map (fun q => (q.1, q.2.map Prod.fst)), fun _ => 0, fun _ => 0, fun _ => 0⟩, rows)

end PyECLOUD
