import Verif.Model.Observed
import Verif.Model.SaverSteps

/-!
# The simulation loop with histogram and step-by-step saver (buildup_simulation.py:162-225, 429-455; pyecloud_saver.py:256-322)

`Model/Observed` has the histograms only. Here `witness` also takes the step-by-step samples and, when a sample is taken, empties
the counters of the cross ionisation. The two parts of the saver write to different attributes; they are run one after the
other (in the code the histograms of a passage come last). Snapshots, movies, output and log files only read.
-/

namespace PyECLOUD

variable {K : Type} [Field K] [LinearOrder K]

/-- Settings of the saver of a cloud. -/
structure SavCfg (K : Type) where
  hist : HistCfg K
  sbs : SbsCfg K

/-- Simulation, histograms in the output and step-by-step samples of every cloud. -/
structure FullSt (K : Type) where
  obs : ObservedSt K
  sbs : ℕ → Sbs K

/-- What `save_cross_ion_data` returns (cross_ionization.py:419-428). Without cross ionisation the saver does not ask
(`flag_cross_ion` is set with the object, init.py:286-288): zeros. -/
def crossRow (x : Option (XState K)) (nm : ℕ) : K × K × K :=
  match x with
  | none => (0, 0, 0)
  | some x => (x.save nm).1

/-- The counters after `save_cross_ion_data` (cross_ionization.py:424-426). -/
def SimSt.crossSaved (st : SimSt K) (nm : ℕ) : SimSt K := { st with cross := st.cross.map (fun x => (x.save nm).2) }

/-- What the step-by-step saver of cloud `i` is given (pyecloud_saver.py:813-869): time, line density, counters of the impacts,
macroparticles, counters of the cross ionisation. The other entries (energy of the field, custom observables) are arbitrary. -/
def sbsInput (inp : StepIn K) (wi : WitIn K) (cnt : ImpCount K) (cl : XCloud K) (x : Option (XState K)) : WitIn K :=
  { wi with tt := inp.tt, lam := inp.main.lam, newPass := inp.newPass, cnt := cnt, cloud := cl.mps, cross := crossRow x cl.name }

variable [FloorRing K]

/-- `pyeclsaver.witness` of cloud `i` (buildup_simulation.py:432-455, pyecloud_saver.py:256-322). -/
def witnessOne (sc : ℕ → Option (SavCfg K)) (inp : StepIn K) (w : ℕ → WitIn K) (i : ℕ) (st : FullSt K) : Except PyErr (FullSt K) :=
  match sc i with
  | none => .ok st
  | some c =>
    match saveOne (fun j => (sc j).map (fun c => c.hist)) inp w i st.obs with
    | .error e => .error e
    | .ok o =>
      match st.obs.sim.clouds[i]? with
      | none => .error .indexError
      | some cl =>
        match (st.sbs i).save c.sbs (sbsInput inp (w i) (st.obs.sim.cnt i) cl st.obs.sim.cross) with
        | .error e => .error e
        | .ok s =>
          .ok ⟨if c.sbs.cross && decide (c.sbs.dtSave ≤ inp.tt - (st.sbs i).tLast) then ⟨o.sim.crossSaved cl.name, o.sav⟩ else o,
            Function.update st.sbs i s⟩

/-- All savers, in the order of the clouds (buildup_simulation.py:432-455). -/
def witnessAll (sc : ℕ → Option (SavCfg K)) (inp : StepIn K) (w : ℕ → WitIn K) : List ℕ → FullSt K → Except PyErr (FullSt K)
  | [], st => .ok st
  | i :: l, st =>
    match witnessOne sc inp w i st with
    | .error e => .error e
    | .ok st' => witnessAll sc inp w l st'

/-- `sim_time_step` with its savers (buildup_simulation.py:162-225). -/
def fullStep (S : SimCfg K) (sc : ℕ → Option (SavCfg K)) (inp : StepIn K) (w : ℕ → WitIn K) (st : FullSt K) :
    Except PyErr (FullSt K) :=
  match simRun S (inp.moveOps S st.obs.sim.clouds.length) st.obs.sim with
  | .error e => .error e
  | .ok s1 =>
    match witnessAll sc inp w (List.range st.obs.sim.clouds.length) ⟨⟨s1, st.obs.sav⟩, st.sbs⟩ with
    | .error e => .error e
    | .ok s2 =>
      match simRun S (inp.maintOps st.obs.sim.clouds.length) s2.obs.sim with
      | .error e => .error e
      | .ok s3 => .ok ⟨⟨s3, s2.obs.sav⟩, s2.sbs⟩

/-- The loop of `run` over the time steps (buildup_simulation.py:131-160). -/
def fullRun (S : SimCfg K) (sc : ℕ → Option (SavCfg K)) : List (StepIn K × (ℕ → WitIn K)) → FullSt K → Except PyErr (FullSt K)
  | [], st => .ok st
  | e :: l, st =>
    match fullStep S sc e.1 e.2 st with
    | .error x => .error x
    | .ok st' => fullRun S sc l st'

end PyECLOUD
