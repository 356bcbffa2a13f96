import Verif.Model.MPHistory
import Verif.Model.Dynamics
import Verif.Model.Impact
import Verif.Model.Sources
import Verif.Model.CrossIon

/-!
# Model of the simulation loop: `BuildupSimulation.sim_time_step` (buildup_simulation.py:163-224)

One time step is the list of elementary operations it executes, in order. The space charge solution, the saving of
the output and the charge evolution of the surface (`SEY_model_evol`) do not change the macroparticles and are left
out here; so the histograms of `SimSt` are never reset (the saver moves them to the output and resets them once per
passage, modelled in `Model.SaverHist`). The motion is an arbitrary function of the macroparticle, so that every tracker and every field is covered
(`MPs.push`, dynamics models). The emission model is an arbitrary function of the impacts.
-/

namespace PyECLOUD

variable {K : Type} [Field K] [LinearOrder K]

/-- `MP_system.get_positions` (MP_system.py:59-63, 535-536): copies of the live positions. -/
def MPs.positions (s : MPs K) : List (K × K × K) :=
  (List.range s.nmp).map (fun i => ((s.arr .x).getD i 0, (s.arr .y).getD i 0, (s.arr .z).getD i 0))

/-- Settings of `residual_gas_ionization` (gas_ionization_class.py:65-80) and the flags of the cloud. -/
structure GasCfg (K : Type) where
  on : Bool
  tIon : K
  unifFrac : K
  xAper : K
  yAper : K
  kIon : K
  v0 : K

/-- Which photoemission class a cloud uses (init.py:427-450): none, one that follows photon trajectories to the wall,
or the one that starts on the segments. -/
inductive PhotoCfg (K : Type) where
  | off
  | rays (kc : K) (mean : Option K)
  | segs (kc : K) (mean : Option K) (l : List (PhSeg K)) (cdf : List K)

/-- Settings of a simulation; clouds are numbered in the order of `cloud_list`. -/
structure SimCfg (K : Type) where
  ch : Chamber K
  sq : K → K
  lg : K → K
  qe : K
  imp : ℕ → ImpCfg K
  full : ℕ → FullCfg K
  regen : ℕ → RegenCfg
  gas : ℕ → GasCfg K
  photo : ℕ → PhotoCfg K

/-- The state the time step works on: the clouds, the histograms and counters of their impact managers, the cross
ionisation. -/
structure SimSt (K : Type) where
  clouds : List (XCloud K)
  hists : ℕ → ImpHist K
  cnt : ℕ → ImpCount K
  cross : Option (XState K)

/-- Elementary operations of a time step. -/
inductive SimOp (K : Type) where
  | track (i : ℕ) (step : ℕ → Phase K → Phase K) (sey : K → List (Impact K) → Except PyErr (SeyOut K)) (tt : K)
  | gas (i : ℕ) (lam dt sx sy xb yb : K) (d : GasDraws K)
  | rays (i : ℕ) (lam dt u : K) (vel : ℕ → Hit K → K × K × K) (ends : ℕ → (K × K) × (K × K))
  | segs (i : ℕ) (lam dt u : K) (vel : ℕ → PhSeg K → K × K × K) (seg r0 : ℕ → K) (rounds : List (ℕ → K))
  | cross (dt : K) (d : ℕ → ℕ → XDraws K)
  | maintain (i : ℕ) (newPass skipClean skipRegen : Bool) (d : FullDraws K) (randSoft randAsync : ℕ → K)

/-- Replace the macroparticles of cloud `i`. -/
def SimSt.put (st : SimSt K) (i : ℕ) (m : MPs K) : SimSt K :=
  { st with clouds := st.clouds.modify i (fun c => { c with mps := m }) }

/-- Apply an operation to the macroparticles of cloud `i`. -/
def SimSt.onCloud (st : SimSt K) (i : ℕ) (f : MPs K → Except PyErr (MPs K)) : Except PyErr (SimSt K) :=
  match st.clouds[i]? with
  | none => .error .indexError
  | some c =>
    match f c.mps with
    | .error e => .error e
    | .ok m => .ok (st.put i m)

variable [FloorRing K]

/-- Motion and impacts of one cloud (buildup_simulation.py:186-207). -/
def SimSt.track (S : SimCfg K) (st : SimSt K) (i : ℕ) (step : ℕ → Phase K → Phase K)
    (sey : K → List (Impact K) → Except PyErr (SeyOut K)) (tt : K) : Except PyErr (SimSt K) :=
  match st.clouds[i]? with
  | none => .error .indexError
  | some c =>
    match impactStep S.sq (S.imp i) S.ch sey (c.mps.push step) c.mps.positions tt (st.hists i) with
    | .error e => .error e
    | .ok (m, h, n) =>
      .ok { st.put i m with hists := Function.update st.hists i h, cnt := Function.update st.cnt i n }

/-- One elementary operation. The fuel of the horizontal cut is the length of its histogram. -/
def SimOp.apply (S : SimCfg K) (st : SimSt K) : SimOp K → Except PyErr (SimSt K)
  | .track i step sey tt => st.track S i step sey tt
  | .gas i lam dt sx sy xb yb d =>
    st.onCloud i (fun m => gasGenerate S.ch.outside (S.gas i).unifFrac (S.gas i).xAper (S.gas i).yAper (S.gas i).kIon
      (S.gas i).v0 lam dt sx sy xb yb d m)
  | .rays i lam dt u vel ends =>
    match S.photo i with
    | .rays kc mean => st.onCloud i (fun m => photoGenerate S.ch vel ends kc mean lam dt u m)
    | _ => .ok st
  | .segs i lam dt u vel seg r0 rounds =>
    match S.photo i with
    | .segs kc mean l cdf =>
      st.onCloud i (fun m => photoSegGenerate S.ch.outside l cdf vel kc mean lam dt u seg r0 rounds m)
    | _ => .ok st
  | .cross dt d =>
    match st.cross with
    | none => .ok st
    | some x =>
      match x.generate S.sq S.lg S.qe dt st.clouds d with
      | .error e => .error e
      | .ok (x', cs) => .ok { st with clouds := cs, cross := some x' }
  | .maintain i newPass skipClean skipRegen d rs ra =>
    st.onCloud i (fun m => m.maintenance newPass skipClean skipRegen (S.full i) (S.regen i) (S.full i).histN d rs ra)

/-- A list of operations; it stops at the first exception. -/
def simRun (S : SimCfg K) : List (SimOp K) → SimSt K → Except PyErr (SimSt K)
  | [], st => .ok st
  | op :: ops, st =>
    match op.apply S st with
    | .error e => .error e
    | .ok st' => simRun S ops st'

/-- The beam quantities used by the sources: line density, time step, size and position. -/
structure StepBeam (K : Type) where
  lam : K
  dt : K
  sx : K
  sy : K
  xb : K
  yb : K

/-- Everything one call of `sim_time_step` reads from outside: the beam(s), the motion of each cloud in its fields,
the emission models, the random numbers. -/
structure StepIn (K : Type) where
  tt : K
  dt : K
  newPass : Bool
  skipClean : Bool
  skipRegen : Bool
  main : StepBeam K
  secs : List (StepBeam K)
  motion : ℕ → ℕ → Phase K → Phase K
  sey : ℕ → K → List (Impact K) → Except PyErr (SeyOut K)
  gasD : ℕ → ℕ → GasDraws K
  phU : ℕ → K
  phVel : ℕ → ℕ → Hit K → K × K × K
  phEnds : ℕ → ℕ → (K × K) × (K × K)
  sgVel : ℕ → ℕ → PhSeg K → K × K × K
  sgSeg : ℕ → ℕ → K
  sgR0 : ℕ → ℕ → K
  sgRounds : ℕ → List (ℕ → K)
  xD : ℕ → ℕ → XDraws K
  fullD : ℕ → FullDraws K
  randSoft : ℕ → ℕ → K
  randAsync : ℕ → ℕ → K

/-- `_primary_generation` (buildup_simulation.py:396-425): gas ionisation by the main and the secondary beams, then
photoemission with the summed line density and the time step of the main beam. -/
def StepIn.primaryOps (S : SimCfg K) (inp : StepIn K) (i : ℕ) : List (SimOp K) :=
  (if inp.tt < (S.gas i).tIon ∧ (S.gas i).on = true then
    (inp.main :: inp.secs).mapIdx (fun k b => SimOp.gas i b.lam b.dt b.sx b.sy b.xb b.yb (inp.gasD i k))
  else []) ++
  (let lam := inp.main.lam + (inp.secs.map (fun b => b.lam)).sum
   match S.photo i with
   | .off => []
   | .rays _ _ => [SimOp.rays i lam inp.dt (inp.phU i) (inp.phVel i) (inp.phEnds i)]
   | .segs _ _ _ _ => [SimOp.segs i lam inp.dt (inp.phU i) (inp.sgVel i) (inp.sgSeg i) (inp.sgR0 i) (inp.sgRounds i)])

/-- The operations of `sim_time_step` on `n` clouds (buildup_simulation.py:162-225, 457-474), in order. -/
def StepIn.ops (S : SimCfg K) (n : ℕ) (inp : StepIn K) : List (SimOp K) :=
  (List.range n).flatMap (fun i => SimOp.track i (inp.motion i) (inp.sey i) inp.tt :: inp.primaryOps S i) ++
  [SimOp.cross inp.dt inp.xD] ++
  (List.range n).map (fun i =>
    SimOp.maintain i inp.newPass inp.skipClean inp.skipRegen (inp.fullD i) (inp.randSoft i) (inp.randAsync i))

/-- `sim_time_step`. -/
def simTimeStep (S : SimCfg K) (inp : StepIn K) (st : SimSt K) : Except PyErr (SimSt K) :=
  simRun S (inp.ops S st.clouds.length) st

/-- The loop over the time steps (buildup_simulation.py:140-158). -/
def simulate (S : SimCfg K) : List (StepIn K) → SimSt K → Except PyErr (SimSt K)
  | [], st => .ok st
  | inp :: l, st =>
    match simTimeStep S inp st with
    | .error e => .error e
    | .ok st' => simulate S l st'

end PyECLOUD
