import Verif.Model.Observed
import Verif.Model.Timing

/-!
# The simulation with its fields

`sim_time_step` of `buildup_simulation.py` with the motion of the clouds in the fields of the beams and of the clouds themselves,
and the recomputation of the field of the clouds. The particle-in-cell solver is PyPIC, an external library: `PicFun` holds its
`scatter` and its `solve` followed by `gather`, as functions of their arguments. Electrostatic mode, one process.
-/

namespace PyECLOUD

/-- The PIC solver: the density of macroparticles `(x, y, nel)` of a given charge, and the electric field at a point that belongs to
a density (`PyPICobj.scatter`, `solve`, `gather` as used in space_charge_class.py:175-207). -/
structure PicFun (K G : Type) where
  scatter : K → List (K × K × K) → G
  solve : G → K → K → K × K

/-- The settings of the time steps: those of SimStep, the solver, charge and charge over mass of the clouds, their trackers, the
tracking options (buildup_simulation.py:300-360) and the options of the space charge (space_charge_class.py:120-126, `t_sc_ON`). -/
structure CplCfg (K G : Type) where
  S : SimCfg K
  pic : PicFun K G
  charge : ℕ → K
  qm : ℕ → K
  tr : ℕ → TrackerObj K
  isBoris : Bool
  unifDt : Bool
  reinterp : Bool
  dtSc : Option K
  tScOn : K

/-- The arguments of one `sim_time_step` (buildup_simulation.py:162-172) and the field of the beams at a point. The `motion` of `step`
is not used. -/
structure CplIn (K : Type) where
  step : StepIn K
  beam : K → K → K × K
  custom : Option (ℕ × K)
  kick : Bool
  force : Bool
  reinterp : Bool

/-- The simulation, the densities and the time of the last recomputation. -/
structure CplSt (K G : Type) where
  sim : SimSt K
  rho : RhoSt G
  tLast : K

variable {K G : Type} [Field K] [LinearOrder K] [FloorRing K] [AddCommGroup G]

/-- The arguments of `scatter` for a cloud (space_charge_class.py:177): live positions and charges. -/
def MPs.scatterArgs (s : MPs K) : List (K × K × K) :=
  (List.range s.nmp).map (fun i => ((s.arr .x).getD i 0, (s.arr .y).getD i 0, (s.arr .nel).getD i 0))

/-- The field of the clouds at a point: `gather` of the last solution; zero before the first one (the arrays of PyPIC are created
zero-filled). -/
def CplSt.field (C : CplCfg K G) (st : CplSt K G) : K → K → K × K :=
  match st.rho.solved.getLast? with
  | none => fun _ _ => (0, 0)
  | some g => C.pic.solve g

/-- `_get_field_from_clouds_at_particles` in electrostatic mode (buildup_simulation.py:237-254). -/
def cloudFields (field : K → K → K × K) (s : MPs K) : Fields K where
  ex := (List.range s.nmp).map (fun i => (field ((s.arr .x).getD i 0) ((s.arr .y).getD i 0)).1)
  ey := (List.range s.nmp).map (fun i => (field ((s.arr .x).getD i 0) ((s.arr .y).getD i 0)).2)
  bx := [0]
  yb := [0]
  bz := [0]

/-- `_get_field_from_beams_at_particles` (buildup_simulation.py:227-235) for a given field of the beams. -/
def beamFields (beam : K → K → K × K) (s : MPs K) : List K × List K :=
  ((List.range s.nmp).map (fun i => (beam ((s.arr .x).getD i 0) ((s.arr .y).getD i 0)).1),
   (List.range s.nmp).map (fun i => (beam ((s.arr .x).getD i 0) ((s.arr .y).getD i 0)).2))

/-- `_cloud_motion` of cloud `i` (buildup_simulation.py:290-394). -/
def cplMotion (C : CplCfg K G) (inp : CplIn K) (field : K → K → K × K) (i : ℕ) (m : MPs K) : Except PyErr (MPs K) :=
  cloudMotion C.isBoris C.unifDt inp.custom inp.kick (C.reinterp || inp.reinterp) (C.tr i) (C.qm i) inp.step.dt (cloudFields field)
    (beamFields inp.beam) m

/-- The turn of one cloud in the loop over the clouds (buildup_simulation.py:183-210): motion, impacts, primaries. The moved
macroparticles are handed to `track` as their new phases. -/
def cplTurn (C : CplCfg K G) (inp : CplIn K) (field : K → K → K × K) (i : ℕ) (st : SimSt K) : Except PyErr (SimSt K) :=
  match st.clouds[i]? with
  | none => .error .indexError
  | some cl =>
    match cplMotion C inp field i cl.mps with
    | .error e => .error e
    | .ok m => simRun C.S (.track i (fun k _ => m.phase k) (inp.step.sey i) inp.step.tt :: inp.step.primaryOps C.S i) st

/-- The loop over the clouds (buildup_simulation.py:183-210). -/
def cplTurns (C : CplCfg K G) (inp : CplIn K) (field : K → K → K × K) : List ℕ → SimSt K → Except PyErr (SimSt K)
  | [], st => .ok st
  | i :: l, st =>
    match cplTurn C inp field i st with
    | .error e => .error e
    | .ok st' => cplTurns C inp field l st'

/-- The densities of the clouds. -/
def cplDeps (C : CplCfg K G) (st : SimSt K) : List G := st.clouds.mapIdx (fun i c => C.pic.scatter (C.charge i) c.mps.scatterArgs)

/-- `_recompute_cloud_spacecharge` (buildup_simulation.py:261-288). -/
def cplRho (C : CplCfg K G) (inp : CplIn K) (flag : Bool) (sim : SimSt K) (rho : RhoSt G) : RhoSt G :=
  if scDo C.tScOn inp.step.tt flag inp.force then rhoRound sim.clouds.length 0 (cplDeps C sim) ⟨rho.rho, [], rho.solved⟩ else rho

/-- `sim_time_step` (buildup_simulation.py:162-225), without the savers. -/
def cplStep (C : CplCfg K G) (inp : CplIn K) (st : CplSt K G) : Except PyErr (CplSt K G) :=
  let chk := scCheck C.dtSc st.tLast inp.step.tt
  match cplTurns C inp (st.field C) (List.range st.sim.clouds.length) st.sim with
  | .error e => .error e
  | .ok s1 =>
    match simRun C.S [.cross inp.step.dt inp.step.xD] s1 with
    | .error e => .error e
    | .ok s2 =>
      match simRun C.S (inp.step.maintOps s2.clouds.length) s2 with
      | .error e => .error e
      | .ok s3 => .ok ⟨s3, cplRho C inp chk.1 s2 st.rho, chk.2⟩

/-- A sequence of time steps. -/
def cplRun (C : CplCfg K G) : List (CplIn K) → CplSt K G → Except PyErr (CplSt K G)
  | [], st => .ok st
  | inp :: l, st =>
    match cplStep C inp st with
    | .error e => .error e
    | .ok st' => cplRun C l st'

end PyECLOUD
