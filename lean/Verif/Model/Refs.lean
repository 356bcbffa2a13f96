import Mathlib.Data.List.Basic

/-!
# Model of the arrays of a simulation as objects that are shared, written in place or copied

The other models treat arrays as values. Here an array is an object in memory, names are bound to objects, and a list that a recorder
keeps holds objects: new ones if the code says `.copy()`, else the object that the name is bound to.
-/

namespace PyECLOUD

/-- The arrays that are recorded. -/
inductive ArrName
  /-- arrays of the macroparticles (MP_system.py:112-120) -/
  | mp (c : ℕ) (f : Fin 7)
  /-- `nel_hist_line`, `nel_hist_det_line` of the saver of a cloud (pyecloud_saver.py:364-395) -/
  | histLine (c : ℕ) | histDetLine (c : ℕ)
  /-- `nel_impact_hist_tot`, `nel_impact_hist_scrub`, `energ_eV_impact_hist` (impact_management_class.py:259-266) -/
  | impTot (c : ℕ) | impScrub (c : ℕ) | impEn (c : ℕ)
  /-- `nel_hist_impact_seg`, `nel_hist_emit_seg`, `energ_eV_impact_seg` (impact_management_class.py:130-132) -/
  | segImp (c : ℕ) | segEmit (c : ℕ) | segEn (c : ℕ)
  /-- `En_hist_line`, `cos_angle_hist`, `seg_En_hist_lines[i]`, `lifetime_hist_line` (impact_management_class.py:103-136) and the
  `ekin_hist` that is made at each recording (pyecloud_saver.py:1191-1194) -/
  | enLine (c : ℕ) | cosLine (c : ℕ) | segEnLine (c i : ℕ) | lifeLine (c : ℕ) | ekin (c : ℕ)
  /-- density, potential, field of the space charge solver (space_charge_class.py:145-159) -/
  | scRho | scPhi | scEx | scEy
  /-- `cloud.rho` (buildup_simulation.py:286-288) -/
  | cloudRho (c : ℕ)
  /-- density, potential, field of the beam slice (PyEC4PyHT.py:649-657) -/
  | beamRho | beamPhi | beamEx | beamEy
  /-- field at the probes (PyEC4PyHT.py:683) -/
  | probeEx | probeEy
deriving DecidableEq

/-- The lists that are recorded into, and the copies that are kept of the macroparticles. -/
inductive Recorder
  /-- `MP_positions` before the tracking (MP_system.py:59-63), `extract_dict` (MP_system.py:580-591),
  recordings of the macroparticles of the first cloud (PyEC4PyHT.py:659-668) -/
  | oldPos (c : ℕ) (f : Fin 7) | dict (c : ℕ) (f : Fin 7) | mpTrack (f : Fin 7)
  /-- pyecloud_saver.py:398-425 -/
  | nelHist (c : ℕ) | nelHistDet (c : ℕ) | impTot (c : ℕ) | impScrub (c : ℕ) | impEn (c : ℕ) | segImp (c : ℕ) | segEmit (c : ℕ)
  | segEn (c : ℕ)
  /-- pyecloud_saver.py:1178-1207 -/
  | enHist (c : ℕ) | cosHist (c : ℕ) | enSeg (c i : ℕ) | life (c : ℕ) | ekin (c : ℕ)
  /-- movies of the total density, of the field and of the density of a cloud (pyecloud_saver.py:1045, 1068, 1097-1098) -/
  | movieRho | movieEx | movieEy | movieCloud (c : ℕ)
  /-- recordings of an interaction (PyEC4PyHT.py:639-657, 685-686) -/
  | trackRho | trackPhi | trackEx | trackEy | trackBeamRho | trackBeamPhi | trackBeamEx | trackBeamEy | trackProbeEx | trackProbeEy
deriving DecidableEq

/-- The array that is recorded, and whether a copy is made; citations at `Recorder`. -/
def Recorder.src : Recorder → ArrName × Bool
  | oldPos c f => (.mp c f, true)
  | dict c f => (.mp c f, true)
  | mpTrack f => (.mp 0 f, true)
  | nelHist c => (.histLine c, true)
  | nelHistDet c => (.histDetLine c, true)
  | impTot c => (.impTot c, true)
  | impScrub c => (.impScrub c, true)
  | impEn c => (.impEn c, true)
  | segImp c => (.segImp c, true)
  | segEmit c => (.segEmit c, true)
  | segEn c => (.segEn c, true)
  | enHist c => (.enLine c, true)
  | cosHist c => (.cosLine c, true)
  | enSeg c i => (.segEnLine c i, true)
  | life c => (.lifeLine c, true)
  | ekin c => (.ekin c, true)
  | movieRho => (.scRho, false)
  | movieEx => (.scEx, false)
  | movieEy => (.scEy, false)
  | movieCloud c => (.cloudRho c, false)
  | trackRho => (.scRho, true)
  | trackPhi => (.scPhi, true)
  | trackEx => (.scEx, true)
  | trackEy => (.scEy, true)
  | trackBeamRho => (.beamRho, true)
  | trackBeamPhi => (.beamPhi, true)
  | trackBeamEx => (.beamEx, true)
  | trackBeamEy => (.beamEy, true)
  | trackProbeEx => (.probeEx, true)
  | trackProbeEy => (.probeEy, true)

/-- Whether only the first `n` entries are taken: `self.x_mp[:self.N_mp].copy()` (MP_system.py:582-588), `get_positions`
(MP_system.py:535-536). -/
def Recorder.sliced : Recorder → Bool
  | oldPos _ _ | dict _ _ => true
  | _ => false

/-- What is done to arrays. `write`: in place, as `+=`, `*=`, `a[...] = ...` and the compiled histograms do. `bind`: the name gets
a new object, whose contents are computed from the others. `record`: with the number of live macroparticles. -/
inductive ArrOp (V : Type)
  | write (a : ArrName) (f : (ArrName → List V) → List V)
  | bind (a : ArrName) (f : (ArrName → List V) → List V)
  | record (r : Recorder) (n : ℕ)

/-- Addresses: of the arrays that are there at the start, and of those made later. -/
inductive Addr
  | start (a : ArrName)
  | made (n : ℕ)
deriving DecidableEq

/-- Memory: objects with their addresses, number of the next object, objects of the names, objects in the lists of the recorders. -/
structure ArrMem (V : Type) where
  obj : Addr → List V
  next : ℕ
  env : ArrName → Addr
  rec' : Recorder → List Addr

/-- The value of each name. -/
def ArrMem.val {V : Type} (m : ArrMem V) (a : ArrName) : List V := m.obj (m.env a)

/-- What a list shows when it is looked at or saved. -/
def ArrMem.shown {V : Type} (m : ArrMem V) (r : Recorder) : List (List V) := (m.rec' r).map m.obj

/-- One operation; citations at `ArrName` and `Recorder`. -/
def ArrMem.step {V : Type} (m : ArrMem V) : ArrOp V → ArrMem V
  | .write a f => { m with obj := fun p => if p = m.env a then f m.val else m.obj p }
  | .bind a f => { m with obj := fun p => if p = .made m.next then f m.val else m.obj p, next := m.next + 1,
                          env := fun b => if b = a then .made m.next else m.env b }
  | .record r n =>
    if r.src.2 then
      { m with obj := fun p => if p = .made m.next then (if r.sliced then (m.val r.src.1).take n else m.val r.src.1) else m.obj p,
               next := m.next + 1,
               rec' := fun s => if s = r then m.rec' s ++ [.made m.next] else m.rec' s }
    else { m with rec' := fun s => if s = r then m.rec' s ++ [m.env r.src.1] else m.rec' s }

/-- All the operations of a simulation, in their order. -/
def ArrMem.run {V : Type} (m : ArrMem V) (ops : List (ArrOp V)) : ArrMem V := ops.foldl ArrMem.step m

/-- Operations that occur: `cloud.rho` is a difference, so a new object each time, and is written nowhere else
(buildup_simulation.py:286-288). What the solver does to its own arrays is not in this code. -/
def ArrOp.occurs {V : Type} : ArrOp V → Prop
  | .write (.cloudRho _) _ => False
  | _ => True

end PyECLOUD
