import Verif.Model.Dynamics

/-!
# Model of the time stepping

`beam_and_timing.py` (time grid, `next_time_step`, `end_simulation`, bunch train), the loop of
`BuildupSimulation.run`, the space-charge schedule and `_cloud_motion` of `buildup_simulation.py`.
-/

namespace PyECLOUD

section grid
variable {K : Type} [Field K] [LinearOrder K] [FloorRing K]

/-- `np.arange(0., stop, step)`: `ceil(stop/step)` points `k*step` (none if that is not positive). -/
def arange (stop step : K) : List K := (List.range ⌈stop / step⌉.toNat).map (fun k : ℕ => (k : K) * step)

/-- Time axis of a bunched primary beam (beam_and_timing.py:121-122). -/
def timeGrid (nBunches : ℕ) (bSpac tEnd dt : K) : List K :=
  arange ((nBunches : K) * bSpac + tEnd + 2 * dt) dt

/-- `N_pass_tot = int(np.ceil(t_inter / b_spac))` with `t_inter = t[-1]` (beam_and_timing.py:124, 166). -/
def nPassTot (t : List K) (bSpac : K) : ℤ := ⌈t.getLastD 0 / bSpac⌉

/-- `np.diff(t)` -/
def diffs (t : List K) : List K := t.zipWith (fun a b => b - a) (t.drop 1)

/-- `flag_unif_Dt` for a beam profile loaded from file (beam_and_timing.py:146-148). -/
def fileUnif (t : List K) : Bool :=
  let d := (diffs t).map (fun v => |v|)
  let mean := d.sum / (d.length : K)
  !decide (d.foldl max 0 - mean > 1 / 10000 * mean)

/-- `Dt` of the beam object for a profile loaded from file (beam_and_timing.py:149-155): the step of the
file when it is uniform, else the configured one. -/
def fileDt (t : List K) (dtCfg : K) : K := if fileUnif t then t.getD 1 0 - t.getD 0 0 else dtCfg

/-- The consistency test of a secondary beam (beam_and_timing.py:156-160). -/
def secBeamOk (dt : K) (t tPrim : List K) : Bool :=
  decide (t.length = tPrim.length) &&
    !decide ((t.zipWith (fun a b => |a - b| / dt) tPrim).foldl max 0 > 1 / 10000)

/-- The arrays of `beam_and_timing` that the time stepping reads. -/
structure BeamGrid (K : Type) where
  t : List K
  lam : List K
  bSpac : K
  unifDt : Bool

/-- The time-dependent attributes of `beam_and_timing` (beam_and_timing.py:345-349); `none` where the
attribute is `None` or not yet set. -/
structure BeamSt (K : Type) where
  ii : ℤ
  tt : Option K
  dtCurr : Option K
  lamCurr : Option K
  pass : Option ℤ
  passOld : ℤ
  newPass : Bool

/-- beam_and_timing.py:345-349 -/
def BeamSt.init : BeamSt K := ⟨-1, none, none, none, none, -1, false⟩

/-- `next_time_step` (beam_and_timing.py:358-367). `b_spac > 0` is assumed (`int(np.floor(inf))` raises). -/
def nextTimeStep (g : BeamGrid K) (s : BeamSt K) : Except PyErr (BeamSt K) := do
  let ii := s.ii + 1
  let tt ← pyGet g.t ii
  let tn ← pyGet g.t (ii + 1)
  let lam ← pyGet g.lam ii
  let pass := ⌊tt / g.bSpac⌋
  let new := decide (pass > s.passOld)
  .ok { ii := ii, tt := some tt, dtCurr := some (tn - tt), lamCurr := some lam, pass := some pass,
        passOld := cond new pass s.passOld, newPass := new }

/-- `end_simulation` (beam_and_timing.py:369-370). -/
def endSim (g : BeamGrid K) (s : BeamSt K) : Bool := decide (s.ii + 2 ≥ (g.t.length : ℤ))

/-- `tt_curr >= t_end_sim` (buildup_simulation.py:143-146). -/
def reachedEnd (tEnd : Option K) (s : BeamSt K) : Bool :=
  match tEnd, s.tt with
  | some te, some t => decide (t ≥ te)
  | _, _ => false

/-- The loop of `run` (buildup_simulation.py:141-160) with the body of `sim_time_step` abstracted to
`body`, which gets the beam state of the step. Returns the final states; `fuel` bounds the number of
iterations (`.stillRunning` when exhausted). -/
def runLoop {S : Type} (g : BeamGrid K) (body : BeamSt K → S → Except PyErr S) (tEnd : Option K) :
    ℕ → BeamSt K → S → Except PyErr (BeamSt K × S)
  | 0, _, _ => .error .stillRunning
  | fuel + 1, b, s =>
    if endSim g b then .ok (b, s)
    else if reachedEnd tEnd b then .ok (b, s)
    else
      match nextTimeStep g b with
      | .error e => .error e
      | .ok b' =>
        match body b' s with
        | .error e => .error e
        | .ok s' => runLoop g body tEnd fuel b' s'

end grid

/-! ## Bunch train -/

noncomputable section train

/-- One bucket of `bunch_train4` at one time (beam_and_timing.py:72-79). -/
def bunchAt (c t tOffs bSpac : ℝ) (i : ℕ) (ppb sigmaz : ℝ) : ℝ :=
  if sigmaz > 0 then
    let z0 := c * (tOffs + (i : ℝ) * bSpac)
    let zz := c * t
    if |zz - z0| < 10 * sigmaz then
      ppb / (sigmaz * Real.sqrt (2 * Real.pi)) * Real.exp (-(zz - z0) * (zz - z0) / (2 * sigmaz * sigmaz))
    else 0
  else 0

/-- `bunch_train4` at one time (beam_and_timing.py:61-81): the loop over the buckets accumulates.
`ppb` and `sigmaz` are `ppb_vect`, `sigmaz_vect`. -/
def trainAt (c t bSpac tOffs : ℝ) : ℕ → List (ℝ × ℝ) → ℝ → ℝ
  | _, [], val => val
  | i, (ppb, sz) :: l, val => trainAt c t bSpac tOffs (i + 1) l (val + bunchAt c t tOffs bSpac i ppb sz)

/-- `sigmaz_vect[ppb_vect > 0] = sigmaz`, zero elsewhere (beam_and_timing.py:129-133). -/
def sigmazVect (ppb : List ℝ) (sigmaz : ℝ) : List ℝ := ppb.map (fun p => if p > 0 then sigmaz else 0)

/-- `lam_t_array = fact_beam * bunch_train4(...) + coast_dens` at one time (beam_and_timing.py:135, 163-164). -/
def lineDensity (c t bSpac tOffs factBeam coast : ℝ) (ppb : List ℝ) (sigmaz : ℝ) : ℝ :=
  factBeam * trainAt c t bSpac tOffs 0 (ppb.zip (sigmazVect ppb sigmaz)) 0 + coast

end train

/-! ## Space-charge schedule -/

section sched
variable {K : Type} [Field K] [LinearOrder K]

/-- `check_for_recomputation` (space_charge_class.py:161-173) with `Dt_sc` (`none`: no decimation) and
`t_last_recom`; returns the flag and the new `t_last_recom`. -/
def scCheck (dtSc : Option K) (tLast t : K) : Bool × K :=
  let flag := match dtSc with
    | none => true
    | some d => decide (t - tLast ≥ d)
  (flag, cond flag t tLast)

/-- The condition of `_recompute_cloud_spacecharge` (buildup_simulation.py:265-268). -/
def scDo (tScOn t : K) (flag force : Bool) : Bool := (decide (t > tScOn) && flag) || force

/-- A sequence of time steps `(tt_curr, force_recompute_space_charge)`: whether the field is recomputed at
each of them (sim_time_step, buildup_simulation.py:179-181, 217-219). -/
def scRun (dtSc : Option K) (tScOn : K) : K → List (K × Bool) → List Bool
  | _, [] => []
  | tLast, (t, force) :: l =>
    let r := scCheck dtSc tLast t
    scDo tScOn t r.1 force :: scRun dtSc tScOn r.2 l

/-- Charge densities during `_recompute_cloud_spacecharge` (buildup_simulation.py:261-288) when the
condition holds: `rho` of the solver, the densities already stored for the clouds of this round, and the
densities the solver was run on. `dep` is the deposition of a cloud (PyPIC `scatter` of an external
library: replaces `rho`, or adds to it with `flag_add`). The averaging over MPI ranks
(space_charge_class.py:182-200) is not modelled (`comm is None`). -/
structure RhoSt (G : Type) where
  rho : G
  cloudRho : List G
  solved : List G

/-- one iteration of the loop over the clouds, cloud `i` of `n` -/
def rhoCloudStep {G : Type} [AddCommGroup G] (n : ℕ) (s : RhoSt G) (i : ℕ) (dep : G) : RhoSt G :=
  let flagReset := decide (i = 0)
  let flagSolve := decide (i + 1 = n)
  let rho := cond flagReset dep (s.rho + dep)
  { rho := rho
    cloudRho := s.cloudRho ++ [rho - (s.cloudRho.take i).sum]
    solved := cond flagSolve (s.solved ++ [rho]) s.solved }

/-- the loop over the clouds -/
def rhoRound {G : Type} [AddCommGroup G] (n : ℕ) : ℕ → List G → RhoSt G → RhoSt G
  | _, [], s => s
  | i, d :: l, s => rhoRound n (i + 1) l (rhoCloudStep n s i d)

end sched

/-! ## Motion of one cloud -/

section motion
variable {K : Type} [Field K] [LinearOrder K] [FloorRing K]

/-- Fields at the live particles, as handed to the tracker. -/
structure Fields (K : Type) where
  ex : List K
  ey : List K
  bx : List K
  yb : List K
  bz : List K

/-- A tracker object: its `Dt`, its attribute `N_sub_steps` (`none` when absent or `None`), `step`, and
`stepcustomDt dt n`. -/
structure TrackerObj (K : Type) where
  dt : K
  nSub : Option ℕ
  step : MPs K → Fields K → Except PyErr (MPs K)
  stepCustom : MPs K → Fields K → K → ℕ → Except PyErr (MPs K)

/-- Plan of one cloud motion: number of external sub-steps (each with a field interpolation), number of
internal sub-steps and their length (`none`: the tracker's own `step`). -/
structure Plan (K : Type) where
  next : ℕ
  nint : ℕ
  dtSub : Option K
  deriving DecidableEq

/-- "Determine mode" (buildup_simulation.py:300-331): `(flag_substeps, N_substeps_curr, Dt_substep_curr)`
as `none` / `some (n, dt)`. In the non-uniform mode `beamtim.Dt_curr` is a numpy float, so dividing by
`N_substeps_curr = 0` gives `inf` and no exception; the length is then irrelevant because no sub-step is
made (the model has `x / 0 = 0`). -/
def substepMode (isBoris unifDt : Bool) (custom : Option (ℕ × K)) (tr : TrackerObj K) (dtCurr : K) :
    Except PyErr (Option (ℕ × K)) :=
  match custom with
  | some (n, d) => if isBoris then .ok (some (n, d)) else .error .valueError
  | none =>
    if unifDt then
      match tr.nSub with
      | some n => .ok (some (n, tr.dt / (n : K)))
      | none => .ok none
    else if isBoris then
      match tr.nSub with
      | some m =>
        let target := tr.dt / (m : K)
        let n := (roundHE (dtCurr / target)).toNat
        .ok (some (n, dtCurr / (n : K)))
      | none => .error .typeError
    else .error .valueError

/-- "Decide number of substeps internal and external" (buildup_simulation.py:352-360). -/
def substepPlan (reinterp : Bool) (mode : Option (ℕ × K)) : Except PyErr (Plan K) :=
  match mode with
  | none => if reinterp then .error .valueError else .ok ⟨1, 1, none⟩
  | some (n, d) => if reinterp then .ok ⟨n, 1, some d⟩ else .ok ⟨1, n, some d⟩

/-- `_apply_instantaneous_kick` (buildup_simulation.py:256-259). -/
def kickMP (s : MPs K) (ex ey : List K) (dtKick qm : K) : MPs K :=
  s.push (fun i p => { p with vx := p.vx + ex.getD i 0 * dtKick * qm, vy := p.vy + ey.getD i 0 * dtKick * qm })

/-- field addition `Ex_n += Ex_n_beam` (buildup_simulation.py:374-375) -/
def Fields.addE (f : Fields K) (n : ℕ) (ex ey : List K) : Fields K :=
  { f with ex := (List.range n).map (fun i : ℕ => f.ex.getD i 0 + ex.getD i 0)
           ey := (List.range n).map (fun i : ℕ => f.ey.getD i 0 + ey.getD i 0) }

/-- The fields handed to the tracker in one external sub-step (buildup_simulation.py:365-375). `cloudF` and
`beamE` are the interpolations of the cloud fields and of the beam fields at the particles of a cloud;
`none` in kick mode. -/
def motionFields (cloudF : MPs K → Fields K) (beamE : Option (MPs K → List K × List K)) (s : MPs K) : Fields K :=
  match beamE with
  | none => cloudF s
  | some b => (cloudF s).addE s.nmp (b s).1 (b s).2

/-- `step` or `stepcustomDt` (buildup_simulation.py:378-394). -/
def motionOne (tr : TrackerObj K) (nint : ℕ) (dtSub : Option K) (s : MPs K) (f : Fields K) : Except PyErr (MPs K) :=
  match dtSub with
  | none => tr.step s f
  | some d => tr.stepCustom s f d nint

/-- The loop over the external sub-steps (buildup_simulation.py:363-394). -/
def motionLoop (tr : TrackerObj K) (cloudF : MPs K → Fields K) (beamE : Option (MPs K → List K × List K))
    (nint : ℕ) (dtSub : Option K) : ℕ → MPs K → Except PyErr (MPs K)
  | 0, s => .ok s
  | k + 1, s =>
    match motionOne tr nint dtSub s (motionFields cloudF beamE s) with
    | .error e => .error e
    | .ok s' => motionLoop tr cloudF beamE nint dtSub k s'

/-- `_cloud_motion` (buildup_simulation.py:290-394). `qm` is `charge/mass` of the cloud. -/
def cloudMotion (isBoris unifDt : Bool) (custom : Option (ℕ × K)) (kickMode reinterp : Bool)
    (tr : TrackerObj K) (qm dtCurr : K) (cloudF : MPs K → Fields K) (beamE : MPs K → List K × List K)
    (s : MPs K) : Except PyErr (MPs K) :=
  match substepMode isBoris unifDt custom tr dtCurr with
  | .error e => .error e
  | .ok mode =>
    let kicked : Except PyErr (MPs K) :=
      match kickMode, custom with
      | false, _ => .ok s
      | true, none => .error .valueError
      | true, some (n, d) => .ok (kickMP s (beamE s).1 (beamE s).2 (d * (n : K)) qm)
    match kicked with
    | .error e => .error e
    | .ok s1 =>
      match substepPlan reinterp mode with
      | .error e => .error e
      | .ok p => motionLoop tr cloudF (if kickMode then none else some beamE) p.nint p.dtSub p.next s1

/-- The Boris tracker as a tracker object (dynamics_Boris_f2py.py). -/
def borisObj (src : BSrc K) (b0 : V3 K) (qm dt : K) (nSub : ℕ) : TrackerObj K where
  dt := dt
  nSub := some nSub
  step := fun s f => .ok (borisStep src b0 qm dt nSub s ⟨f.ex, f.ey, []⟩)
  stepCustom := fun s f d n => .ok (borisCustomDt src b0 qm s ⟨f.ex, f.ey, []⟩ d n)

/-- The multipole Boris tracker as a tracker object (dynamics_Boris_multipole.py); the magnetic fields of
the clouds are added to the uniform ones. -/
def multipoleObj (bf bs : List K) (b0x b0y b0z : Option K) (qm dt : K) (nSub : ℕ) : TrackerObj K where
  dt := dt
  nSub := some nSub
  step := fun s f => multipoleStep bf bs ⟨b0x, b0y, b0z, some f.bx, some f.yb, some f.bz⟩ qm dt nSub s f.ex f.ey 0
  stepCustom := fun s f d n =>
    multipoleCustomDt bf bs ⟨b0x, b0y, b0z, some f.bx, some f.yb, some f.bz⟩ qm s f.ex f.ey 0 d n

end motion

/-- The strong dipole tracker as a tracker object (dynamics_dipole.py): no `N_sub_steps`, no
`stepcustomDt` (the mode decision never asks for it). -/
noncomputable def dipoleObj (qm b dt : ℝ) : TrackerObj ℝ where
  dt := dt
  nSub := none
  step := fun s f => .ok (dipoleStep qm b dt s f.ex f.ey)
  stepCustom := fun _ _ _ _ => .error .typeError

/-- The generalised strong-field tracker as a tracker object. -/
noncomputable def strongObj (src : BSrc ℝ) (b0x b0y qm thr dt : ℝ) : TrackerObj ℝ where
  dt := dt
  nSub := none
  step := fun s f => .ok (strongStep src b0x b0y qm thr dt s f.ex f.ey)
  stepCustom := fun _ _ _ _ => .error .typeError

end PyECLOUD
