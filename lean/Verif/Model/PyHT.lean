import Verif.Model.Timing

/-!
# Interface to PyHEADTAIL: slices of a bunch interacting with a cloud, and the frozen field map

PyEC4PyHT.py and Transverse_Efield_map_for_frozen_cloud.py. The cloud simulation itself (`sim_time_step` of
buildup_simulation.py) enters through the functions of `EcSim`; the PyPIC solver and interpolation are external.
-/

namespace PyECLOUD

/-- `slic.slice_info`: the keys `interact_with_EC`, `info_parent_bunch` (its `i_bunch`), `i_slice`. -/
structure SliceInfo where
  interact : Option Bool
  parent : Option ℤ
  iSlice : ℤ
  deriving DecidableEq

/-- A slice: its length, its metadata (`none`: no attribute `slice_info`), positions and slopes of its particles. -/
structure SliceIn (K : Type) where
  dz : K
  info : Option SliceInfo
  pos : List (K × K)
  slope : List (K × K)
  deriving DecidableEq

/-- The attributes of an `Ecloud` object used here, and those of the beam. -/
structure EcCfg (K : Type) where
  Dt : Option K
  dtRef : K
  beta : K
  gamma : K
  mass : K
  charge : K
  p0 : K
  c : K
  len : K
  xOff : K
  yOff : K
  kickX : Bool
  kickY : Bool
  reinterp : Bool
  sliceMode : Bool
  saveField : Bool
  once : Bool

/-- The arguments of one call of `sim_time_step` (PyEC4PyHT.py:586-613). -/
structure SimCall (K : Type) where
  t : K
  dt : K
  pass : ℤ
  newPass : Bool
  nSub : ℤ
  dtSub : K
  force : Bool
  skipClean : Bool
  skipRegen : Bool
  reinterp : Bool
  deriving DecidableEq

/-- The cloud simulation: `move` is the part of `sim_time_step` before the space charge (motion in the fields, impacts,
sources; buildup_simulation.py:183-214), `solve` the field of a cloud, `maint` cleaning and regeneration
(buildup_simulation.py:457-474), `gather` the interpolation of a field at a point, `init` the cloud of `initial_MP_e_clouds`. -/
structure EcSim (K C F : Type) where
  init : C
  move : SimCall K → List (K × K) → F → C → Except PyErr C
  solve : C → F
  maint : SimCall K → C → Except PyErr C
  gather : F → K → K → K × K
  tScOn : K
  dtSc : Option K

/-- State of an `Ecloud` object: `t_sim`, `t_last_recom` of the space charge, `i_curr_bunch`, cloud, field in the solver,
`Ex/Ey_ele_last_track`, `N_tracks`, `i_reinit`. `log` is not in the code: it lists the calls of `sim_time_step`. -/
structure EcSt (K C F : Type) where
  tSim : K
  tLast : K
  cur : ℤ
  cloud : C
  field : F
  saved : List F
  nTracks : ℕ
  nReinit : ℕ
  log : List (SimCall K)

variable {K : Type} [Field K] [LinearOrder K] [FloorRing K] {C F : Type}

/-- `interact_with_EC` (PyEC4PyHT.py:487-494). -/
def SliceIn.interacts (sl : SliceIn K) : Bool := (sl.info.bind (fun i => i.interact)).getD true

/-- `dt_slice` (PyEC4PyHT.py:497). -/
def EcCfg.dtSlice (g : EcCfg K) (sl : SliceIn K) : K := sl.dz / (g.beta * g.c)

/-- `dt_array` (PyEC4PyHT.py:499-515). -/
def dtArray (Dt : Option K) (interact : Bool) (dt : K) : Except PyErr (List K) :=
  match Dt with
  | none => .ok [dt]
  | some D =>
    if dt > D then
      if interact then .error .valueError
      else .ok (List.replicate ⌈dt / D⌉.toNat (dt / (⌈dt / D⌉.toNat : K)))
    else .ok [dt]

/-- `N_sub_steps`, `Dt_substep` (PyEC4PyHT.py:545-551). -/
def subSteps (dtRef dt : K) : ℤ × K :=
  let n := if dt > dtRef then roundHE (dt / dtRef) else 1
  (n, dt / (n : K))

/-- `_reinitialize` (PyEC4PyHT.py:691-797): the cloud is set to the initial one, the record is emptied, the bunch number reset.
The solver and the clock are not touched. The output saver is not modelled here. -/
def ecReinit (g : EcCfg K) (m : EcSim K C F) (s : EcSt K C F) : EcSt K C F :=
  { s with
    cloud := m.init
    saved := if g.saveField then [] else s.saved
    cur := -1
    nReinit := s.nReinit + 1 }

/-- `_finalize` (PyEC4PyHT.py:799-845) for the recorded field. -/
def ecFinalize (g : EcCfg K) (s : EcSt K C F) : EcSt K C F := { s with saved := if g.saveField then s.saved.reverse else s.saved }

/-- Passage information (PyEC4PyHT.py:517-540): new state, and `new_pass`. `finalize_and_reinitialize` is an attribute only in
the slice-by-slice mode (PyEC4PyHT.py:366-370). -/
def ecBunch (g : EcCfg K) (m : EcSim K C F) (force : Bool) (s : EcSt K C F) (info : Option SliceInfo) :
    Except PyErr (EcSt K C F × Bool) :=
  match info.bind (fun i => i.parent.map (fun b => (b, i.iSlice))) with
  | none => .ok ({ s with cur := 0 }, force)
  | some (b, i) =>
    if b = 0 ∧ i = 0 ∧ g.sliceMode = false then .error .unbound
    else
      let s1 := if b = 0 ∧ i = 0 then ecReinit g m (ecFinalize g s) else s
      if b > s1.cur then .ok ({ s1 with cur := b }, true) else .ok (s1, force)

/-- The calls of `sim_time_step` for a slice (PyEC4PyHT.py:542-613, 688-689). -/
def sliceCalls (g : EcCfg K) (interact : Bool) (pass : ℤ) : K → Bool → Bool → List K → List (SimCall K)
  | _, _, _, [] => []
  | t, newPass, first, dt :: l =>
    { t := t
      dt := dt
      pass := pass
      newPass := newPass
      nSub := (subSteps g.dtRef dt).1
      dtSub := (subSteps g.dtRef dt).2
      force := interact || first
      skipClean := interact
      skipRegen := interact
      reinterp := interact && g.reinterp } :: sliceCalls g interact pass (t + dt) false false l

/-- `sim_time_step` (buildup_simulation.py:162-225). -/
def ecSimStep (m : EcSim K C F) (call : SimCall K) (beam : List (K × K)) (s : EcSt K C F) : Except PyErr (EcSt K C F) := do
  let r := scCheck m.dtSc s.tLast call.t
  let c ← m.move call beam s.field s.cloud
  let f := if scDo m.tScOn call.t r.1 call.force then m.solve c else s.field
  let c2 ← m.maint call c
  .ok { s with
    cloud := c2
    field := f
    tLast := r.2
    log := s.log ++ [call] }

/-- The beam seen by the cloud: positions in the frame of the cloud, nothing for an empty or non-interacting slice
(PyEC4PyHT.py:553-584). -/
def beamOf (g : EcCfg K) (sl : SliceIn K) : List (K × K) :=
  if sl.interacts then sl.pos.map (fun q => (q.1 + g.xOff, q.2 + g.yOff)) else []

/-- Kick on the particles of a slice (PyEC4PyHT.py:615-634). -/
def ecKick (g : EcCfg K) (m : EcSim K C F) (f : F) (sl : SliceIn K) : SliceIn K :=
  let fact := g.charge / (g.mass * g.beta * g.beta * g.gamma * g.c * g.c) * g.len
  { sl with slope := List.zipWith (fun q v =>
      let e := m.gather f (q.1 + g.xOff) (q.2 + g.yOff)
      (if g.kickX then v.1 + fact * e.1 else v.1, if g.kickY then v.2 + fact * e.2 else v.2)) sl.pos sl.slope }

/-- The loop over the cloud steps of a slice (PyEC4PyHT.py:542-689). Of the diagnostics the recorded field is modelled. -/
def ecCalls (g : EcCfg K) (m : EcSim K C F) : List (SimCall K) → EcSt K C F → SliceIn K → Except PyErr (EcSt K C F × SliceIn K)
  | [], s, sl => .ok (s, sl)
  | call :: l, s, sl => do
    let s1 ← ecSimStep m call (beamOf g sl) s
    let sl1 := if sl.interacts then ecKick g m s1.field sl else sl
    ecCalls g m l
      { s1 with
        saved := if g.saveField then s1.saved ++ [s1.field] else s1.saved
        tSim := s1.tSim + call.dt } sl1

/-- `_track_single_slice` (PyEC4PyHT.py:483-689). -/
def trackSlice (g : EcCfg K) (m : EcSim K C F) (force : Bool) (s : EcSt K C F) (sl : SliceIn K) :
    Except PyErr (EcSt K C F × SliceIn K) := do
  let dts ← dtArray g.Dt sl.interacts (g.dtSlice sl)
  let (s1, newPass) ← ecBunch g m force s sl.info
  ecCalls g m (sliceCalls g sl.interacts s1.cur s1.tSim newPass true dts) s1 sl

/-- The loop over the slices of a bunch, last slice first (PyEC4PyHT.py:405-415): the list is in the order of tracking, and the
last slice tracked has index 0. -/
def trackRev (g : EcCfg K) (m : EcSim K C F) : List (SliceIn K) → EcSt K C F → Except PyErr (EcSt K C F × List (SliceIn K))
  | [], s => .ok (s, [])
  | sl :: l, s => do
    let (s1, sl1) ← trackSlice g m l.isEmpty s sl
    let (s2, l2) ← trackRev g m l s1
    .ok (s2, sl1 :: l2)

/-- `track` of a whole bunch (PyEC4PyHT.py:385-427). The check of the particle sizes and the re-slicing are not modelled. -/
def trackBunch (g : EcCfg K) (m : EcSim K C F) (s : EcSt K C F) (slices : List (SliceIn K)) :
    Except PyErr (EcSt K C F × List (SliceIn K)) :=
  if g.once && decide (s.nTracks > 0) then .ok (s, slices)
  else do
    let (s1, l) ← trackRev g m slices.reverse (ecReinit g m s)
    let s2 := ecFinalize g s1
    .ok ({ s2 with nTracks := s2.nTracks + 1 }, l.reverse)

/-- A sequence of slices in the slice-by-slice mode (`_track_in_single_slice_mode`, PyEC4PyHT.py:852-864). -/
def trackSlices (g : EcCfg K) (m : EcSim K C F) : List (SliceIn K) → EcSt K C F → Except PyErr (EcSt K C F × List (SliceIn K))
  | [], s => .ok (s, [])
  | sl :: l, s => do
    let (s1, sl1) ← trackSlice g m false s sl
    let (s2, l2) ← trackSlices g m l s1
    .ok (s2, sl1 :: l2)

/-- Kick of the frozen map (Transverse_Efield_map_for_frozen_cloud.py:58-78) with `wrt_slice_centroid = False`. -/
def frozenKick (g : EcCfg K) (m : EcSim K C F) (f : F) (sl : SliceIn K) : SliceIn K :=
  let fact := g.charge / (g.p0 * g.beta * g.c) * g.len
  { sl with slope := List.zipWith (fun q v =>
      let e := m.gather f (q.1 - 0 + g.xOff) (q.2 - 0 + g.yOff)
      (v.1 + fact * e.1, v.2 + fact * e.2)) sl.pos sl.slope }

/-- The loop over the slices: maps and slices are both taken from the end; here both lists are reversed
(Transverse_Efield_map_for_frozen_cloud.py:45-56). -/
def frozenRev (g : EcCfg K) (m : EcSim K C F) : List F → List (SliceIn K) → Except PyErr (List (SliceIn K))
  | _, [] => .ok []
  | [], _ :: _ => .error .indexError
  | f :: fs, sl :: l => do
    let r ← frozenRev g m fs l
    .ok (frozenKick g m f sl :: r)

/-- `Transverse_Efield_map.track` of a whole bunch (Transverse_Efield_map_for_frozen_cloud.py:39-56). -/
def frozenTrack (g : EcCfg K) (m : EcSim K C F) (maps : List F) (slices : List (SliceIn K)) : Except PyErr (List (SliceIn K)) := do
  let r ← frozenRev g m maps.reverse slices.reverse
  .ok r.reverse

end PyECLOUD
