import Verif.Model.Observed

/-!
# Model of the saved simulation state and of its loading (pyecloud_saver.py:953-1011, buildup_simulation.py:476-525)
-/

namespace PyECLOUD

variable {K : Type} [Field K] [LinearOrder K] [FloorRing K]

/-- The state given to the savers in step `inp` (buildup_simulation.py:183-222), after the steps `pre`. -/
def seenBySaver (S : SimCfg K) (pre : List (StepIn K)) (inp : StepIn K) (st0 : SimSt K) : Except PyErr (SimSt K) :=
  match simulate S pre st0 with
  | .error e => .error e
  | .ok st => simRun S (inp.moveOps S st.clouds.length) st

/-- The part of a state that is written (pyecloud_saver.py:981-993): the clouds, which hold their impact managers. The
cross ionisation is not among the entries. -/
structure SimFile (K : Type) where
  clouds : List (XCloud K)
  hists : ℕ → ImpHist K
  cnt : ℕ → ImpCount K

/-- What is written (pyecloud_saver.py:981-997). -/
def SimSt.file (st : SimSt K) : SimFile K := ⟨st.clouds, st.hists, st.cnt⟩

/-- `load_state` (buildup_simulation.py:476-525) into the simulation `fresh` built from the input files: each of its clouds is
replaced by the one saved under the same index; everything not in the file stays as built. Names of output files, the beams,
the space charge and the savers are not part of `SimSt`. -/
def loadState (f : SimFile K) (fresh : SimSt K) : Except PyErr (SimSt K) :=
  if f.clouds.length < fresh.clouds.length then .error .indexError
  else .ok ⟨f.clouds.take fresh.clouds.length, f.hists, f.cnt, fresh.cross⟩

/-- A simulation stopped after the state was saved in step `inp`, loaded into `fresh` and continued with the steps `rest`. -/
def reloaded (S : SimCfg K) (pre : List (StepIn K)) (inp : StepIn K) (rest : List (StepIn K)) (st0 fresh : SimSt K) :
    Except PyErr (SimSt K) :=
  match seenBySaver S pre inp st0 with
  | .error e => .error e
  | .ok st =>
    match loadState st.file fresh with
    | .error e => .error e
    | .ok st1 => simulate S rest st1

/-- What `_sim_state_single_save` takes away from the objects it writes: the savers of the clouds, the factorised matrix of the
solver, the states of the vector potentials. `none` is the value written in their place. -/
structure SaveObj (V : Type) where
  savers : List (Option V)
  lu : Option V
  scLu : Option V
  em : Bool
  ax : Option V
  ay : Option V
  as : Option V
  axOld : Option V
  ayOld : Option V

/-- Before the file is written (pyecloud_saver.py:958-979). -/
def SaveObj.strip {V : Type} (o : SaveObj V) : SaveObj V :=
  { o with
    lu := none
    scLu := none
    ax := if o.em then none else o.ax
    ay := if o.em then none else o.ay
    as := if o.em then none else o.as
    axOld := if o.em then none else o.axOld
    ayOld := if o.em then none else o.ayOld
    savers := o.savers.map (fun _ => none) }

/-- After the file was written (pyecloud_saver.py:999-1009): put back what was taken from `o`. -/
def SaveObj.putBack {V : Type} (o t : SaveObj V) : SaveObj V :=
  { t with
    savers := List.zipWith (fun _ s => s) t.savers o.savers
    lu := o.lu
    ax := if t.em then o.ax else t.ax
    ay := if t.em then o.ay else t.ay
    as := if t.em then o.as else t.as
    axOld := if t.em then o.axOld else t.axOld
    ayOld := if t.em then o.ayOld else t.ayOld }

/-- `_sim_state_single_save` (pyecloud_saver.py:953-1011): the objects as written, if this is the saver of the last cloud, and
the objects afterwards. -/
def SaveObj.save {V : Type} (last : Bool) (o : SaveObj V) : Option (SaveObj V) × SaveObj V :=
  if last then (some o.strip, o.putBack o.strip) else (none, o)

/-- `load_state` (buildup_simulation.py:493-522): the savers of the new simulation, a new factorisation `lu`, and with
electromagnetic tracking new states `st` of the three potentials. -/
def SaveObj.load {V : Type} (f : SaveObj V) (savers : List (Option V)) (lu st : V) : SaveObj V :=
  { f with
    savers := savers
    lu := some lu
    ax := if f.em then some st else f.ax
    ay := if f.em then some st else f.ay
    as := if f.em then some st else f.as }

end PyECLOUD
