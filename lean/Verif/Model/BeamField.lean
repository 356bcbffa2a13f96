import Verif.Model.Timing
import Verif.Model.Grid
import Mathlib.Analysis.SpecialFunctions.Sqrt

/-!
# Beam fields, several beams, beam sizes, input file lookup

`get_beam_eletric_field` (beam_and_timing.py), `_get_field_from_beams_at_particles` and the advance of the secondary
beams (buildup_simulation.py), `beam_descr_from_fil` (parse_beam_file.py), file lookup (init.py).
-/

namespace PyECLOUD

section field
variable {K : Type} [Field K] [LinearOrder K] [FloorRing K]

/-- A numpy value that is a Python float or a one-dimensional array. -/
inductive NpVal (K : Type)
  | scalar (v : K)
  | array (l : List K)
  deriving DecidableEq

/-- `a += b`: a float becomes a new object; an array is changed in place, which requires that `b` broadcasts to its
shape. -/
def NpVal.iadd : NpVal K → NpVal K → Except PyErr (NpVal K)
  | .scalar a, .scalar b => .ok (.scalar (a + b))
  | .scalar a, .array l => .ok (.array (l.map (fun v => a + v)))
  | .array l, .scalar b => .ok (.array (l.map (fun v => v + b)))
  | .array l, .array m =>
    if l.length = m.length then .ok (.array (l.zipWith (fun a b => a + b) m))
    else match m with
      | [b] => .ok (.array (l.map (fun v => v + b)))
      | _ => .error .valueError

/-- The field map of a beam (beam_and_timing.py:316-328): origin and steps from the first two coordinates. -/
structure BeamMap (K : Type) where
  nx : ℕ
  ny : ℕ
  xmin : K
  ymin : K
  dx : K
  dy : K
  ex : ℕ → ℕ → K
  ey : ℕ → ℕ → K

/-- Where the field of a unit line charge comes from: a map that is interpolated by `int_field` (beam_and_timing.py:314-328), or the
state of PyPIC for `compute_FDSW_multigrid`, whose `gather` gives both components at a point (beam_and_timing.py:286-293). -/
inductive BeamSrc (K : Type) where
  | map (m : BeamMap K)
  | pic (gather : K → K → K × K)

/-- What `get_beam_eletric_field` reads of a beam: source of the field, `beam_charge`, `lam_th_beam_field`, `lam_t_curr`. -/
structure BeamNow (K : Type) where
  src : BeamSrc K
  charge : K
  lamTh : K
  lam : K

/-- The interpolation: `int_field` (beam_and_timing.py:376-377) or `PyPIC_state.gather` (beam_and_timing.py:391). -/
def BeamSrc.fieldAt : BeamSrc K → List (K × K) → List K × List K
  | .map m, pts => (pts.map (fun p => intField m.nx m.ny m.xmin m.ymin m.dx m.dy m.ex p.1 p.2),
      pts.map (fun p => intField m.nx m.ny m.xmin m.ymin m.dx m.dy m.ey p.1 p.2))
  | .pic g, pts => (pts.map (fun p => (g p.1 p.2).1), pts.map (fun p => (g p.1 p.2).2))

/-- `get_beam_eletric_field` (beam_and_timing.py:372-385) and `_get_beam_eletric_field_PyPICstate`
(beam_and_timing.py:387-399), which replaces it with `compute_FDSW_multigrid`, at the positions of the live macroparticles. -/
def beamFieldAt (b : BeamNow K) (pts : List (K × K)) : NpVal K × NpVal K :=
  if b.lam > b.lamTh ∧ 0 < pts.length then
    let e := b.src.fieldAt pts
    (.array (e.1.map (fun v => b.charge * b.lam * v)), .array (e.2.map (fun v => b.charge * b.lam * v)))
  else (.scalar 0, .scalar 0)

/-- The loop over the secondary beams in `_get_field_from_beams_at_particles` (buildup_simulation.py:230-234). -/
def addBeams (pts : List (K × K)) : List (BeamNow K) → NpVal K × NpVal K → Except PyErr (NpVal K × NpVal K)
  | [], e => .ok e
  | b :: l, e => do
    let f := beamFieldAt b pts
    let x ← e.1.iadd f.1
    let y ← e.2.iadd f.2
    addBeams pts l (x, y)

/-- `_get_field_from_beams_at_particles` (buildup_simulation.py:227-235). -/
def beamsAt (prim : BeamNow K) (secs : List (BeamNow K)) (pts : List (K × K)) : Except PyErr (NpVal K × NpVal K) :=
  addBeams pts secs (beamFieldAt prim pts)

/-- Cloud field plus beam field (buildup_simulation.py:365-375): `Ex_n += Ex_n_beam`, `cloudE` is the array gathered from
the field solver. -/
def totalField (prim : BeamNow K) (secs : List (BeamNow K)) (cloudE : List K × List K) (pts : List (K × K)) :
    Except PyErr (NpVal K × NpVal K) := do
  let b ← beamsAt prim secs pts
  let x ← (NpVal.array cloudE.1).iadd b.1
  let y ← (NpVal.array cloudE.2).iadd b.2
  .ok (x, y)

end field

section several
variable {K : Type} [Field K] [LinearOrder K] [FloorRing K]

/-- `for sec_beam in sec_beams_list: sec_beam.next_time_step()` (buildup_simulation.py:150-152). -/
def nextAll : List (BeamGrid K × BeamSt K) → Except PyErr (List (BeamGrid K × BeamSt K))
  | [] => .ok []
  | (g, s) :: l => do
    let s' ← nextTimeStep g s
    let l' ← nextAll l
    .ok ((g, s') :: l')

/-- `n` iterations of the loop of `run` as far as the beams are concerned (buildup_simulation.py:141-152); it ends
when the primary beam is at its end. -/
def runBeams : ℕ → (BeamGrid K × BeamSt K) → List (BeamGrid K × BeamSt K) →
    Except PyErr ((BeamGrid K × BeamSt K) × List (BeamGrid K × BeamSt K))
  | 0, p, secs => .ok (p, secs)
  | n + 1, (g, s), secs =>
    if endSim g s then .ok ((g, s), secs)
    else do
      let s' ← nextTimeStep g s
      let secs' ← nextAll secs
      runBeams n (g, s') secs'

end several

/-! ## Beam sizes -/

noncomputable section sizes

/-- The optics entries of a beam file and of the machine file: `None` when not given. -/
structure Optics where
  betaf : Option ℝ
  disp : Option ℝ

/-- "keep backwards compatibility": missing optics are taken from the machine file (parse_beam_file.py:26-34). -/
def Optics.orElse (b m : Optics) : Optics := ⟨b.betaf.or m.betaf, b.disp.or m.disp⟩

/-- `gamma_rel` (parse_beam_file.py:36-37). -/
def gammaRel (energyEV qe m0 c : ℝ) : ℝ := energyEV * qe / (m0 * c ^ 2)

/-- `beta_rel` (parse_beam_file.py:38-39). -/
def betaRel (gamma : ℝ) : ℝ := √(1 - 1 / (gamma * gamma))

/-- The size of a beam in one plane (parse_beam_file.py:41-55): `-1` stands for "from the emittance". A missing
dispersion is `None**2`. The square roots of negative numbers (`nan` in numpy) are excluded in the theorems. -/
def beamSize (gamma sigma : ℝ) (o : Optics) (nemit : Option ℝ) (dpp : ℝ) : Except PyErr ℝ :=
  if sigma = -1 then
    match o.betaf, nemit with
    | some b, some en =>
      match o.disp with
      | some d => .ok (√(b * (en / (betaRel gamma * gamma)) + d ^ 2 * dpp ^ 2))
      | none => .error .typeError
    | _, _ => .error .valueError
  else .ok sigma

end sizes

/-! ## Lookup of input files -/

/-- Lookup of a profile file of a beam (init.py:207-215): in the input folder, there with `.mat` appended, else the name
as given. `isFile` says which paths exist. -/
def profPath (isFile : String → Bool) (folder name : String) : String :=
  if isFile (folder ++ "/" ++ name) then folder ++ "/" ++ name
  else if isFile (folder ++ "/" ++ name ++ ".mat") then folder ++ "/" ++ name ++ ".mat"
  else name

/-- The same for a secondary beam (init.py:240-249): the second test uses the name of the primary beam's file. -/
def secProfPath (isFile : String → Bool) (folder name primName : String) : String :=
  if isFile (folder ++ "/" ++ name) then folder ++ "/" ++ name
  else if isFile (folder ++ "/" ++ primName ++ ".mat") then folder ++ "/" ++ name ++ ".mat"
  else name

/-! ## Electromagnetic space charge -/

section em

/-- A PyPIC object or state: charge density and the potential of the last solution. -/
structure Pic (G P : Type) where
  rho : G
  phi : P

/-- What one cloud deposits: charge, and the two current components (space_charge_class_electromagnetic.py:106-116);
the deposition itself is C21. -/
structure EmDep (G : Type) where
  q : G
  jx : G
  jy : G

/-- The solver states of `space_charge_electromagnetic`. -/
structure EmSt (G P : Type) where
  pic : Pic G P
  ax : Pic G P
  ay : Pic G P
  axOld : Option (Pic G P)
  ayOld : Option (Pic G P)

/-- `scatter(..., flag_add)`. -/
def Pic.scatter {G P : Type} [Add G] (p : Pic G P) (flagAdd : Bool) (d : G) : Pic G P :=
  { p with rho := cond flagAdd (p.rho + d) d }

/-- `solve()` with the solution operator of the chamber. -/
def Pic.solve {G P : Type} (sol : G → P) (p : Pic G P) : Pic G P := { p with phi := sol p.rho }

/-- `recompute_spchg_emfield` (space_charge_class_electromagnetic.py:97-121). `get_state_object` copies the state. -/
def emRecompute {G P : Type} [Add G] (sol : G → P) (flagSolve flagReset : Bool) (d : EmDep G) (s : EmSt G P) : EmSt G P :=
  let axOld := some s.ax
  let ayOld := some s.ay
  let pic := s.pic.scatter (!flagReset) d.q
  let ax := s.ax.scatter (!flagReset) d.jx
  let ay := s.ay.scatter (!flagReset) d.jy
  if flagSolve then ⟨pic.solve sol, ax.solve sol, ay.solve sol, axOld, ayOld⟩
  else ⟨pic, ax, ay, axOld, ayOld⟩

/-- `_recompute_cloud_spacecharge` in electromagnetic mode (buildup_simulation.py:265-288): the first cloud resets, the
last one solves; `n` clouds, starting with cloud `i`. -/
def emRound {G P : Type} [Add G] (sol : G → P) (n : ℕ) : ℕ → List (EmDep G) → EmSt G P → EmSt G P
  | _, [], s => s
  | i, d :: l, s => emRound sol n (i + 1) l (emRecompute sol (decide (i + 1 = n)) (decide (i = 0)) d s)

/-- Interpolation of the field of a state and of its potential at a point (PyPIC `gather`, `gather_phi`). -/
structure EmGather (P K : Type) where
  ex : P → K × K → K
  ey : P → K × K → K
  phi : P → K × K → K

/-- `get_sc_em_field` (space_charge_class_electromagnetic.py:123-150) at one particle: `(Ex, Ey, Bx, By, Bz)`. -/
def emField {G P K : Type} [Field K] (g : EmGather P K) (beta c : K) (dtSc : Option K) (s : EmSt G P) (p : K × K) :
    Except PyErr (K × K × K × K × K) := do
  let dAxdy := -g.ey s.ax.phi p
  let dAydx := -g.ex s.ay.phi p
  let dt : K × K ← match s.axOld, s.ayOld with
    | some ox, some oy =>
      match dtSc with
      | some d => .ok ((g.phi s.ax.phi p - g.phi ox.phi p) / d, (g.phi s.ay.phi p - g.phi oy.phi p) / d)
      | none => .error .typeError
    | _, _ => .ok (0, 0)
  .ok (g.ex s.pic.phi p - dt.1, g.ey s.pic.phi p - dt.2, 1 / (beta * c) * dt.2, -1 / (beta * c) * dt.1, dAydx - dAxdy)

/-- One time step as far as the space charge is concerned (buildup_simulation.py:179-181, 217-219): time of the last
recomputation, solver states and a log of the recomputations made (time and deposits; not part of the program). -/
structure EmSim (G P K : Type) where
  em : EmSt G P
  tLast : K
  log : List (K × List (EmDep G))

/-- one step at time `t` with the deposits the clouds would make -/
def emStep {G P K : Type} [Add G] [Field K] [LinearOrder K] (sol : G → P) (dtSc : Option K) (tScOn : K)
    (s : EmSim G P K) (t : K) (ds : List (EmDep G)) : EmSim G P K :=
  let r := scCheck dtSc s.tLast t
  if scDo tScOn t r.1 false then ⟨emRound sol ds.length 0 ds s.em, r.2, s.log ++ [(t, ds)]⟩
  else { s with tLast := r.2 }

/-- a sequence of time steps -/
def emRun {G P K : Type} [Add G] [Field K] [LinearOrder K] (sol : G → P) (dtSc : Option K) (tScOn : K) :
    EmSim G P K → List (K × List (EmDep G)) → EmSim G P K
  | s, [] => s
  | s, (t, ds) :: l => emRun sol dtSc tScOn (emStep sol dtSc tScOn s t ds) l

/-- "Restoring PyPIC Ax, Ay and As state objects" of `load_state` (buildup_simulation.py:518-522): the states are replaced
by copies of the main solver, that is of the scalar potential. -/
def emLoad {G P : Type} (s : EmSt G P) : EmSt G P := { s with ax := s.pic, ay := s.pic }

end em

end PyECLOUD
