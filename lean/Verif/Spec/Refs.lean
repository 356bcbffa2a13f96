import Verif.Model.Refs

/-!
# What recordings should show: the values of the moment of recording
-/

namespace PyECLOUD

/-- Values of the arrays and, for each recorder, a page with the value at each recording. -/
structure Diary (V : Type) where
  now : ArrName → List V
  pages : Recorder → List (List V)

/-- The array that each recording is about, by the names under which the recordings are kept; and whether it is about the live
macroparticles only. -/
def Recorder.subject : Recorder → ArrName
  | nelHist c => .histLine c
  | nelHistDet c => .histDetLine c
  | impTot c => .impTot c
  | impScrub c => .impScrub c
  | impEn c => .impEn c
  | segImp c => .segImp c
  | segEmit c => .segEmit c
  | segEn c => .segEn c
  | enHist c => .enLine c
  | cosHist c => .cosLine c
  | enSeg c i => .segEnLine c i
  | life c => .lifeLine c
  | ekin c => .ekin c
  | movieCloud c => .cloudRho c
  | trackProbeEx => .probeEx
  | trackProbeEy => .probeEy
  | trackBeamRho => .beamRho
  | trackBeamPhi => .beamPhi
  | trackBeamEx => .beamEx
  | trackBeamEy => .beamEy
  | movieRho | trackRho => .scRho
  | trackPhi => .scPhi
  | movieEx | trackEx => .scEx
  | movieEy | trackEy => .scEy
  | oldPos c f | dict c f => .mp c f
  | mpTrack f => .mp 0 f

def Recorder.live : Recorder → Bool
  | oldPos _ _ | dict _ _ => true
  | _ => false

/-- A new value changes the value of this array only. A recording adds a page with the present value (its live part), which nothing
changes later. -/
def Diary.step {V : Type} (d : Diary V) : ArrOp V → Diary V
  | .write a f | .bind a f => { d with now := fun b => if b = a then f d.now else d.now b }
  | .record r n =>
    let v := d.now r.subject
    { d with pages := fun s => if s = r then d.pages s ++ [if r.live then v.take n else v] else d.pages s }

def Diary.run {V : Type} (d : Diary V) (ops : List (ArrOp V)) : Diary V := ops.foldl Diary.step d

/-- A memory at the start: every array is an object of its own, nothing is recorded. -/
structure ArrMem.Fresh {V : Type} (m : ArrMem V) : Prop where
  own : ∀ a, m.env a = .start a
  next : m.next = 0
  none : ∀ r, m.rec' r = []

end PyECLOUD
