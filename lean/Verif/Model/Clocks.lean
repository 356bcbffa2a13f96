import Verif.Model.SaverHist

/-!
# Model of the recording schedules of a saver and of their state after a restart

`start_observing`, the conditions in `witness` (pyecloud_saver.py:256-322) and `load_checkpoint` (buildup_simulation.py:527-547).
-/

namespace PyECLOUD

variable {K : Type} [Field K] [LinearOrder K]

/-- Something recorded by a saver: an energy histogram, a lifetime histogram, a sample of the step-by-step series, the file
`MP_state_k`, the file `simulation_state_k`, the file `simulation_checkpoint_k`. -/
inductive Recd where
  | energy
  | life
  | step
  | snap (k : ℕ)
  | simState (k : ℕ)
  | ckpt (k : ℕ)
  deriving DecidableEq

/-- Settings of the saver of one cloud: `Dt_En_hist`, `Dt_lifetime_hist` (if `flag_lifetime_hist`), `Dt_save`, the times of the
`MP_state` files and of the simulation states, `checkpoint_DT` (if checkpoints are saved). -/
structure ClockCfg (K : Type) where
  dtEn : K
  dtLife : Option K
  dtSave : K
  obs : List K
  sim : List K
  ck : Option K

/-- `t_last_En_hist`, `t_last_lifetime_hist`, `t_last_save`, `i_obs`, `i_obs_sim`, `i_checkp`, `t_last_checkp`. -/
structure Clocks (K : Type) where
  en : K
  life : K
  save : K
  obs : ℕ
  sim : ℕ
  iCk : ℕ
  tCk : K

/-- After `start_observing` (pyecloud_saver.py:519-520, 744, 917, 951, 1149, 1167). -/
def Clocks.start : Clocks K := ⟨-1, -1, -1, 0, 0, 0, 0⟩

/-- After `load_checkpoint` (buildup_simulation.py:542-547) of checkpoint number `i` taken at time `tt`, with `tEn` the
`t_last_En_hist` found in the file: the savers are new (507-508) and have gone through `start_observing`; `load_from_output` sets
none of the other attributes (pyecloud_saver.py:576-693; `i_last_save` is part of the series, C56). -/
def Clocks.loaded (i : ℕ) (tt tEn : K) : Clocks K := { Clocks.start with en := tEn, iCk := i + 1, tCk := tt }

/-- A call of `witness`: time, whether a bunch passage starts, whether the cloud has macroparticles. -/
structure TickIn (K : Type) where
  tt : K
  newPass : Bool
  nonEmpty : Bool

/-- The files `MP_state_k` (pyecloud_saver.py:920-934). -/
def tickSnap (c : ClockCfg K) (s : Clocks K) (e : TickIn K) : List Recd × Clocks K :=
  match c.obs[s.obs]? with
  | none => ([], s)
  | some t => if e.nonEmpty && decide (e.tt ≥ t) then ([.snap s.obs], { s with obs := s.obs + 1 }) else ([], s)

/-- The simulation states (pyecloud_saver.py:1013-1025); the saver of the last cloud writes the file. -/
def tickSim (c : ClockCfg K) (s : Clocks K) (e : TickIn K) : List Recd × Clocks K :=
  match c.sim[s.sim]? with
  | none => ([], s)
  | some t => if e.tt ≥ t then ([.simState s.sim], { s with sim := s.sim + 1 }) else ([], s)

/-- Energy histograms (pyecloud_saver.py:1177-1181). -/
def tickEn (c : ClockCfg K) (s : Clocks K) (e : TickIn K) : List Recd × Clocks K :=
  if histDue e.tt s.en c.dtEn then ([.energy], { s with en := e.tt }) else ([], s)

/-- Lifetime histograms (pyecloud_saver.py:1205-1210). -/
def tickLife (c : ClockCfg K) (s : Clocks K) (e : TickIn K) : List Recd × Clocks K :=
  match c.dtLife with
  | none => ([], s)
  | some dt => if histDue e.tt s.life dt then ([.life], { s with life := e.tt }) else ([], s)

/-- Step-by-step samples (pyecloud_saver.py:822-827). -/
def tickStep (c : ClockCfg K) (s : Clocks K) (e : TickIn K) : List Recd × Clocks K :=
  if e.tt - s.save ≥ c.dtSave then ([.step], { s with save := e.tt }) else ([], s)

/-- Checkpoints (pyecloud_saver.py:527-547, called at passages, 313-315). -/
def tickCk (c : ClockCfg K) (s : Clocks K) (e : TickIn K) : List Recd × Clocks K :=
  match c.ck with
  | none => ([], s)
  | some dt => if e.newPass && decide (e.tt - s.tCk ≥ dt) then ([.ckpt s.iCk], { s with iCk := s.iCk + 1, tCk := e.tt }) else ([], s)

/-- One call of `witness`: what is recorded, in order, and the clocks afterwards (pyecloud_saver.py:256-322). -/
def Clocks.tick (c : ClockCfg K) (s : Clocks K) (e : TickIn K) : List Recd × Clocks K :=
  let r1 := tickSnap c s e
  let r2 := tickSim c r1.2 e
  let r3 := tickEn c r2.2 e
  let r4 := tickLife c r3.2 e
  let r5 := tickStep c r4.2 e
  let r6 := tickCk c r5.2 e
  (r1.1 ++ r2.1 ++ r3.1 ++ r4.1 ++ r5.1 ++ r6.1, r6.2)

/-- Successive calls: everything recorded, with its time, and the clocks at the end. -/
def Clocks.run (c : ClockCfg K) : Clocks K → List (TickIn K) → List (K × Recd) × Clocks K
  | s, [] => ([], s)
  | s, e :: l =>
    let r := s.tick c e
    let q := Clocks.run c r.2 l
    (r.1.map (fun x => (e.tt, x)) ++ q.1, q.2)

/-- A run stopped after the steps `pre`, the last of which wrote a checkpoint, and restarted: what the saver of a cloud with
settings `c` records in all. `last` are the settings of the last cloud, whose saver writes the file
(pyecloud_saver.py:981-989). -/
def restartedRecords (c last : ClockCfg K) (pre rest : List (TickIn K)) : List (K × Recd) :=
  let own := Clocks.start.run c pre
  let wr := Clocks.start.run last pre
  own.1 ++ ((Clocks.loaded (wr.2.iCk - 1) wr.2.tCk wr.2.en).run c rest).1

end PyECLOUD
