import Verif.Model.PyHT
import Verif.Model.Sources

/-!
# E-clouds in PyHEADTAIL: construction, recorded quantities, and the beam as the cloud simulation sees it

PyEC4PyHT.py. The motion of the cloud is that of `Verif.Model.PyHT`; here the quantities a user asks to be recorded during a
tracking are added (`save_ele_...`, `save_beam_...`, probes).
-/

namespace PyECLOUD

/-- The recorded quantities (PyEC4PyHT.py:636-686). `Ex_...` and `Ey_...` are recorded together, as are the two coordinates. -/
inductive RecKind where
  | eleRho
  | elePhi
  | eleField
  | beamRho
  | beamPhi
  | beamField
  | mpPos
  | mpVel
  | mpSize
  | mpNum
  | probes
  deriving DecidableEq, Repr

/-- The flags of an `Ecloud` object (PyEC4PyHT.py:309-354), which the user may set at any time. -/
structure RecFlags where
  eleRho : Bool
  elePotField : Bool
  elePot : Bool
  eleField : Bool
  beamRho : Bool
  beamPotField : Bool
  beamPot : Bool
  beamField : Bool
  mpPos : Bool
  mpVel : Bool
  mpSize : Bool
  probes : Bool
  deriving DecidableEq

/-- Whether a quantity is recorded (the conditions in PyEC4PyHT.py:639-686, the same in `_reinitialize` and `_finalize`). -/
def RecFlags.on (f : RecFlags) : RecKind → Bool
  | .eleRho => f.eleRho
  | .elePhi => f.elePot
  | .eleField => f.eleField
  | .beamRho => f.beamRho
  | .beamPhi => f.beamPot
  | .beamField => f.beamField
  | .mpPos => f.mpPos
  | .mpVel => f.mpVel
  | .mpSize => f.mpSize
  | .mpNum => f.mpPos || f.mpVel || f.mpSize
  | .probes => f.probes

/-- `save_ele_potential_and_field` and `save_beam_potential_and_field` set two flags each, in `_reinitialize`
(PyEC4PyHT.py:748-750, 762-764). -/
def RecFlags.spread (f : RecFlags) : RecFlags :=
  { f with
    elePot := f.elePot || f.elePotField
    eleField := f.eleField || f.elePotField
    beamPot := f.beamPot || f.beamPotField
    beamField := f.beamField || f.beamPotField }

/-- What the attribute of a recorded quantity holds: nothing yet, the number -1, a list, or an array. -/
inductive RecAttr (V : Type) where
  | missing
  | int
  | list (l : List V)
  | arr (l : List V)
  deriving DecidableEq

/-- The attributes `..._last_track`. -/
abbrev Recs (V : Type) := RecKind → RecAttr V

section Recorder

variable {V : Type}

/-- `self.x.append(v)`: an attribute that does not exist, a number and an array have no `append`. -/
def RecAttr.append (a : RecAttr V) (v : V) : Except PyErr (RecAttr V) :=
  match a with
  | .list l => .ok (.list (l ++ [v]))
  | _ => .error .unbound

/-- `np.array(self.x[::-1])` -/
def RecAttr.finalized (a : RecAttr V) : Except PyErr (RecAttr V) :=
  match a with
  | .list l => .ok (.arr l.reverse)
  | .arr l => .ok (.arr l.reverse)
  | .missing => .error .unbound
  | .int => .error .typeError

/-- The order in which the quantities are handled (PyEC4PyHT.py:639-686). -/
def recOrder : List RecKind :=
  [.eleRho, .elePhi, .eleField, .beamRho, .beamPhi, .beamField, .mpPos, .mpVel, .mpSize, .mpNum, .probes]

/-- The attributes after `act` on those whose quantity is recorded, in turn. -/
def recEach (f : RecFlags) (act : RecKind → RecAttr V → Except PyErr (RecAttr V)) : List RecKind → Recs V → Except PyErr (Recs V)
  | [], r => .ok r
  | k :: l, r =>
    if f.on k then do
      let a ← act k (r k)
      recEach f act l (Function.update r k a)
    else recEach f act l r

/-- The diagnostics of one cloud step (PyEC4PyHT.py:636-686); `snap` are the current values. -/
def recStep (f : RecFlags) (snap : RecKind → V) (r : Recs V) : Except PyErr (Recs V) :=
  recEach f (fun k a => a.append (snap k)) recOrder r

/-- The diagnostics in `_finalize` (PyEC4PyHT.py:799-845). -/
def recFinalize (f : RecFlags) (r : Recs V) : Except PyErr (Recs V) := recEach f (fun _ a => a.finalized) recOrder r

/-- The diagnostics in `_reinitialize` (PyEC4PyHT.py:745-792), `f` being the flags after lines 748-750 and 762-764. -/
def recClear (f : RecFlags) (r : Recs V) : Recs V := fun k => if f.on k then .list [] else r k

end Recorder

/-- State of an `Ecloud` object with its records: `ec` as before (its own record of the field is not used here), `beam` the state
`beam_PyPIC_state` of the solver for the beam. -/
structure RecSt (K C F B V : Type) where
  ec : EcSt K C F
  beam : B
  flags : RecFlags
  recs : Recs V

/-- What is read off when recording: of the cloud and its field, and of the beam (`scatter` and `solve_states` of PyPIC). -/
structure RecSim (K C F B V : Type) where
  scatter : List (K × K) → B
  ofCloud : C → F → RecKind → V
  ofBeam : B → RecKind → V

/-- The quantities of the beam. -/
def RecKind.isBeam : RecKind → Bool
  | .beamRho => true
  | .beamPhi => true
  | .beamField => true
  | _ => false

variable {K : Type} [Field K] [LinearOrder K] [FloorRing K] {C F B V : Type}

/-- The values recorded after a step (PyEC4PyHT.py:636-686). -/
def RecSim.snap (R : RecSim K C F B V) (e : EcSt K C F) (b : B) (k : RecKind) : V :=
  if k.isBeam then R.ofBeam b k else R.ofCloud e.cloud e.field k

/-- `_reinitialize` (PyEC4PyHT.py:691-797). -/
def recReinit (g : EcCfg K) (m : EcSim K C F) (s : RecSt K C F B V) : RecSt K C F B V :=
  { s with
    ec := ecReinit g m s.ec
    flags := s.flags.spread
    recs := recClear s.flags.spread s.recs }

/-- `_finalize_and_reinitialize` (PyEC4PyHT.py:847-850). -/
def recRestart (g : EcCfg K) (m : EcSim K C F) (s : RecSt K C F B V) : Except PyErr (RecSt K C F B V) := do
  let r ← recFinalize s.flags s.recs
  .ok (recReinit g m { s with ec := ecFinalize g s.ec, recs := r })

/-- Passage information (PyEC4PyHT.py:517-540), as `ecBunch`. -/
def recBunch (g : EcCfg K) (m : EcSim K C F) (force : Bool) (s : RecSt K C F B V) (info : Option SliceInfo) :
    Except PyErr (RecSt K C F B V × Bool) :=
  match info.bind (fun i => i.parent.map (fun b => (b, i.iSlice))) with
  | none => .ok ({ s with ec := { s.ec with cur := 0 } }, force)
  | some (b, i) =>
    if b = 0 ∧ i = 0 ∧ g.sliceMode = false then .error .unbound
    else do
      let s1 ← if b = 0 ∧ i = 0 then recRestart g m s else .ok s
      if b > s1.ec.cur then .ok ({ s1 with ec := { s1.ec with cur := b } }, true) else .ok (s1, force)

/-- The field of the beam (PyEC4PyHT.py:553-577): only computed for a slice that interacts and has particles. -/
def beamState (g : EcCfg K) (R : RecSim K C F B V) (b : B) (sl : SliceIn K) : B :=
  if sl.pos.isEmpty || !sl.interacts then b else R.scatter (beamOf g sl)

/-- The loop over the cloud steps of a slice (PyEC4PyHT.py:542-689) with the diagnostics. -/
def recCalls (g : EcCfg K) (m : EcSim K C F) (R : RecSim K C F B V) :
    List (SimCall K) → RecSt K C F B V → SliceIn K → Except PyErr (RecSt K C F B V × SliceIn K)
  | [], s, sl => .ok (s, sl)
  | call :: l, s, sl => do
    let e1 ← ecSimStep m call (beamOf g sl) s.ec
    let sl1 := if sl.interacts then ecKick g m e1.field sl else sl
    let r ← recStep s.flags (R.snap e1 (beamState g R s.beam sl)) s.recs
    recCalls g m R l
      { s with
        ec := { e1 with
          saved := if g.saveField then e1.saved ++ [e1.field] else e1.saved
          tSim := e1.tSim + call.dt }
        beam := beamState g R s.beam sl
        recs := r } sl1

/-- `_track_single_slice` (PyEC4PyHT.py:483-689). -/
def recSlice (g : EcCfg K) (m : EcSim K C F) (R : RecSim K C F B V) (force : Bool) (s : RecSt K C F B V) (sl : SliceIn K) :
    Except PyErr (RecSt K C F B V × SliceIn K) := do
  let dts ← dtArray g.Dt sl.interacts (g.dtSlice sl)
  let (s1, newPass) ← recBunch g m force s sl.info
  recCalls g m R (sliceCalls g sl.interacts s1.ec.cur s1.ec.tSim newPass true dts) s1 sl

/-- The loop over the slices of a bunch, last slice first (PyEC4PyHT.py:405-415). -/
def recRev (g : EcCfg K) (m : EcSim K C F) (R : RecSim K C F B V) :
    List (SliceIn K) → RecSt K C F B V → Except PyErr (RecSt K C F B V × List (SliceIn K))
  | [], s => .ok (s, [])
  | sl :: l, s => do
    let (s1, sl1) ← recSlice g m R l.isEmpty s sl
    let (s2, l2) ← recRev g m R l s1
    .ok (s2, sl1 :: l2)

/-- `track` of a whole bunch (PyEC4PyHT.py:385-427). -/
def recTrack (g : EcCfg K) (m : EcSim K C F) (R : RecSim K C F B V) (s : RecSt K C F B V) (slices : List (SliceIn K)) :
    Except PyErr (RecSt K C F B V × List (SliceIn K)) :=
  if g.once && decide (s.ec.nTracks > 0) then .ok (s, slices)
  else do
    let (s1, l) ← recRev g m R slices.reverse (recReinit g m s)
    let r ← recFinalize s1.flags s1.recs
    .ok ({ s1 with
      ec := { ecFinalize g s1.ec with nTracks := (ecFinalize g s1.ec).nTracks + 1 }
      recs := r }, l.reverse)

/-- Slices handed over one after the other in the slice-by-slice mode (PyEC4PyHT.py:852-864). -/
def recSlices (g : EcCfg K) (m : EcSim K C F) (R : RecSim K C F B V) :
    List (SliceIn K) → RecSt K C F B V → Except PyErr (RecSt K C F B V × List (SliceIn K))
  | [], s => .ok (s, [])
  | sl :: l, s => do
    let (s1, sl1) ← recSlice g m R false s sl
    let (s2, l2) ← recSlices g m R l s1
    .ok (s2, sl1 :: l2)

/-- `track_once_and_replace_with_recorded_field_map` in the whole-bunch mode (PyEC4PyHT.py:466-482, 429-464): the maps handed to
the frozen field map, the bunch and the state. The e-cloud has not been replaced before. -/
def onceReplace (g : EcCfg K) (m : EcSim K C F) (R : RecSim K C F B V) (s : RecSt K C F B V) (slices : List (SliceIn K)) :
    Except PyErr (RecAttr V × RecSt K C F B V × List (SliceIn K)) := do
  let (s1, l) ← recTrack { g with once := true } m R { s with flags := { s.flags with eleField := true } } slices
  let s2 := { s1 with flags := { s1.flags with eleField := false } }
  match s2.recs .eleField with
  | .missing => .error .unbound
  | a => .ok (a, s2, l)

/-! ## Construction -/

/-- What the constructor of `Ecloud` looks at (PyEC4PyHT.py:127-142, 290-382): `track_method` of the configuration, whether there are
several clouds, the mode, whether a slicer is given, the extra keyword arguments. -/
structure EcArgs (K : Type) where
  method : String
  multiple : Bool
  sliceMode : Bool
  slicer : Bool
  xOff : Option K
  yOff : Option K
  kickX : Option Bool
  kickY : Option Bool
  probes : Option (List (K × K))

/-- The resulting attributes: offsets, kicks, mode, positions of the probes, flags, records. -/
structure EcObj (K V : Type) where
  xOff : K
  yOff : K
  kickX : Bool
  kickY : Bool
  sliceMode : Bool
  probes : List (K × K)
  flags : RecFlags
  recs : Recs V

/-- `Ecloud.__init__` (PyEC4PyHT.py:290-382) after the construction of the build-up simulation. -/
def mkEcloud (a : EcArgs K) : Except PyErr (EcObj K V) :=
  if a.method = "Boris" ∨ a.method = "BorisMultipole" then
    if a.multiple then .error .valueError
    else if a.sliceMode && a.slicer then .error .assertion
    else .ok {
      xOff := a.xOff.getD 0
      yOff := a.yOff.getD 0
      kickX := a.kickX.getD true
      kickY := a.kickY.getD true
      sliceMode := a.sliceMode
      probes := a.probes.getD []
      flags := ⟨false, false, false, false, false, false, false, false, false, false, false, a.probes.isSome⟩
      recs := fun k => if k = .probes then .int else .missing }
  else .error .valueError

/-! ## The beam as the cloud simulation sees it -/

/-- The attributes of `DummyBeamTim` that depend on the slice (PyEC4PyHT.py:553-589): line density, position, and whether there is a
field of the beam. The sizes (`np.std`) are in Model/SliceSize. -/
structure DummyBeam (K : Type) where
  lam : K
  xPos : K
  yPos : K
  field : Bool
  deriving DecidableEq

/-- `np.mean` -/
def npMean (l : List K) : K := l.sum / (l.length : K)

/-- The `DummyBeamTim` of a slice (PyEC4PyHT.py:553-584); `ppm` is `particlenumber_per_mp`. -/
def dummyBeam (g : EcCfg K) (ppm : K) (sl : SliceIn K) : DummyBeam K :=
  if sl.pos.isEmpty || !sl.interacts then ⟨0, 0, 0, false⟩
  else ⟨ppm / sl.dz * (sl.pos.length : K), npMean (sl.pos.map (·.1)) + g.xOff, npMean (sl.pos.map (·.2)) + g.yOff, true⟩

/-- `get_beam_eletric_field` (PyEC4PyHT.py:78-91) for the electrons at `xs`; `gather` is the interpolation of the field of the beam. -/
def dummyField (d : DummyBeam K) (gather : K × K → K × K) (xs : List (K × K)) : List (K × K) :=
  if d.field then xs.map gather else xs.map (fun _ => (0, 0))

/-- Electrons produced on the residual gas while a slice passes: `DNel` (gas_ionization_class.py:88-94) summed over the cloud steps of
the slice (PyEC4PyHT.py:542-613). `kB`, pressure, cross section and temperature as in `gasIonRate`. -/
def sliceIonised (g : EcCfg K) (kB pn sig tk ppm : K) (sl : SliceIn K) : Except PyErr K := do
  let dts ← dtArray g.Dt sl.interacts (g.dtSlice sl)
  .ok ((dts.map (fun dt => gasIonRate kB g.c pn sig tk * (dummyBeam g ppm sl).lam * dt)).sum)

end PyECLOUD
