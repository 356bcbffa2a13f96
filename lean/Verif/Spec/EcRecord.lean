import Verif.Model.EcRecord

/-!
# Specification: what a tracking records

The state of an e-cloud while a bunch is tracked is the pair of the cloud (with its field) and the field of the beam in the solver.
-/

namespace PyECLOUD

variable {K : Type} [Field K] [LinearOrder K] [FloorRing K] {C F B V : Type}

/-- `blk` is what one slice adds to the records, from the state `s` to the state `s'`: a value of every quantity for each cloud step
of the slice, the last one being that of the state after the slice. The field of the beam is renewed by slices which have particles
and interact, and is the same at all steps of the slice. -/
structure SliceRec (g : EcCfg K) (m : EcSim K C F) (R : RecSim K C F B V) (force : Bool) (s : EcSt K C F × B) (sl : SliceIn K)
    (s' : EcSt K C F × B) (sl' : SliceIn K) (blk : List (RecKind → V)) : Prop where
  tracked : trackSlice g m force s.1 sl = .ok (s'.1, sl')
  steps : ∃ dts, dtArray g.Dt sl.interacts (g.dtSlice sl) = .ok dts ∧ blk.length = dts.length
  last : blk.getLast? = some (fun k => if k.isBeam then R.ofBeam s'.2 k else R.ofCloud s'.1.cloud s'.1.field k)
  renewed : sl.pos ≠ [] → sl.interacts = true → s'.2 = R.scatter (sl.pos.map (fun q => (q.1 + g.xOff, q.2 + g.yOff)))
  kept : sl.pos = [] ∨ sl.interacts = false → s'.2 = s.2
  beam : ∀ v ∈ blk, ∀ k, k.isBeam = true → v k = R.ofBeam s'.2 k

/-- `blks` is what a bunch adds to the records, one block for each of its slices, in the order of the slices in the bunch. The last
slice of the bunch is tracked first. -/
inductive BunchRec (g : EcCfg K) (m : EcSim K C F) (R : RecSim K C F B V) :
    List (SliceIn K) → EcSt K C F × B → EcSt K C F × B → List (SliceIn K) → List (List (RecKind → V)) → Prop
  | nil (s) : BunchRec g m R [] s s [] []
  | last (slices sl s s1 s2 sl1 out blk blks) : SliceRec g m R slices.isEmpty s sl s1 sl1 blk → BunchRec g m R slices s1 s2 out blks →
      BunchRec g m R (slices ++ [sl]) s s2 (out ++ [sl1]) (blks ++ [blk])

/-- The recorded quantities a user gets with the given flags: those of the flags, and potential and field with the flags for both. -/
def Wanted (f : RecFlags) : RecKind → Prop
  | .eleRho => f.eleRho = true
  | .elePhi => f.elePot = true ∨ f.elePotField = true
  | .eleField => f.eleField = true ∨ f.elePotField = true
  | .beamRho => f.beamRho = true
  | .beamPhi => f.beamPot = true ∨ f.beamPotField = true
  | .beamField => f.beamField = true ∨ f.beamPotField = true
  | .mpPos => f.mpPos = true
  | .mpVel => f.mpVel = true
  | .mpSize => f.mpSize = true
  | .mpNum => f.mpPos = true ∨ f.mpVel = true ∨ f.mpSize = true
  | .probes => f.probes = true

end PyECLOUD
