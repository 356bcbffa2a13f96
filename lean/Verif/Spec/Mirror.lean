import Verif.Model.SimStep

/-!
# Specification vocabulary: the mirror image of a simulation

A mirror changes the sign of some coordinates and of the velocities along them. Sizes, times and energies are unchanged.
-/

namespace PyECLOUD

/-- The signs the coordinates are multiplied with. -/
structure Mirror (K : Type) [Field K] where
  sx : K
  sy : K
  sz : K
  hx : sx * sx = 1
  hy : sy * sy = 1
  hz : sz * sz = 1

variable {K : Type} [Field K] [LinearOrder K]

/-- left and right exchanged -/
def mirrorX : Mirror K := ⟨-1, 1, 1, by ring, by ring, by ring⟩

/-- top and bottom exchanged -/
def mirrorY : Mirror K := ⟨1, -1, 1, by ring, by ring, by ring⟩

namespace Mirror

/-- the sign of an array -/
def sgn (m : Mirror K) : Fld → K
  | .x => m.sx
  | .y => m.sy
  | .z => m.sz
  | .vx => m.sx
  | .vy => m.sy
  | .vz => m.sz
  | .nel => 1
  | .tl => 1

def vec (m : Mirror K) (v : K × K × K) : K × K × K := (m.sx * v.1, m.sy * v.2.1, m.sz * v.2.2)

def pnt (m : Mirror K) (v : K × K) : K × K := (m.sx * v.1, m.sy * v.2)

def phase (m : Mirror K) (p : Phase K) : Phase K :=
  ⟨m.sx * p.x, m.sy * p.y, m.sz * p.z, m.sx * p.vx, m.sy * p.vy, m.sz * p.vz⟩

def mps (m : Mirror K) (s : MPs K) : MPs K := { s with arr := fun f => (s.arr f).map (m.sgn f * ·) }

def hit (m : Mirror K) (h : Hit K) : Hit K := ⟨m.sx * h.x, m.sy * h.y, m.sz * h.z, m.sx * h.nx, m.sy * h.ny, h.seg⟩

def impact (m : Mirror K) (i : Impact K) : Impact K :=
  { i with x := m.sx * i.x, y := m.sy * i.y, z := m.sz * i.z, vx := m.sx * i.vx, vy := m.sy * i.vy, vz := m.sz * i.vz,
           nx := m.sx * i.nx, ny := m.sy * i.ny }

def emit (m : Mirror K) (e : Emit K) : Emit K :=
  { e with x := m.sx * e.x, y := m.sy * e.y, z := m.sz * e.z, vx := m.sx * e.vx, vy := m.sy * e.vy, vz := m.sz * e.vz }

def seyOut (m : Mirror K) (o : SeyOut K) : SeyOut K := ⟨o.nelEmit, o.replace.map m.emit, o.new.map m.emit⟩

/-- The mirror image of a chamber. -/
def chamber (m : Mirror K) (ch : Chamber K) : Chamber K where
  outside := fun x y => ch.outside (m.sx * x) (m.sy * y)
  hit := fun p q => (ch.hit (m.vec p) (m.vec q)).map m.hit

/-- The emission in the mirror image: what the emission makes of the mirrored impacts, mirrored. -/
def sey (m : Mirror K) (e : K → List (Impact K) → Except PyErr (SeyOut K)) : K → List (Impact K) → Except PyErr (SeyOut K) :=
  fun th imps => (e th (imps.map m.impact)).map m.seyOut

def seg (m : Mirror K) (g : PhSeg K) : PhSeg K := ⟨m.sx * g.x0, m.sy * g.y0, m.sx * g.dx, m.sy * g.dy, m.sx * g.nx, m.sy * g.ny⟩

def photo (m : Mirror K) : PhotoCfg K → PhotoCfg K
  | .off => .off
  | .rays kc mean => .rays kc mean
  | .segs kc mean l cdf => .segs kc mean (l.map m.seg) cdf

def cfg (m : Mirror K) (S : SimCfg K) : SimCfg K := { S with ch := m.chamber S.ch, photo := fun i => m.photo (S.photo i) }

/-- The mirror image of a uniform number (a number in [0, 1] is mirrored at 1/2) or of a normal one. -/
def draw (s : K) (unif : Bool) (u : K) : K := if unif then 1 / 2 + s * (u - 1 / 2) else s * u

/-- The draws of the gas ionisation; `frac` is the fraction of uniformly distributed electrons. -/
def gasDraws (m : Mirror K) (frac : K) (d : GasDraws K) : GasDraws K where
  u := d.u
  kind := d.kind
  x0 := fun i => draw m.sx (decide (d.kind i < frac)) (d.x0 i)
  y0 := fun i => draw m.sy (decide (d.kind i < frac)) (d.y0 i)
  rounds := d.rounds.map (fun r =>
    (fun i => draw m.sx (decide (d.kind i < frac)) (r.1 i), fun i => draw m.sy (decide (d.kind i < frac)) (r.2 i)))
  rvx := draw m.sx true d.rvx
  rvy := draw m.sy true d.rvy
  rvz := draw m.sz true d.rvz

def beam (m : Mirror K) (b : StepBeam K) : StepBeam K := { b with xb := m.sx * b.xb, yb := m.sy * b.yb }

/-- What a time step is given in the mirror image: the beams, the motion in the fields, the emission and the random numbers
mirrored. -/
def step (m : Mirror K) (S : SimCfg K) (inp : StepIn K) : StepIn K :=
  { inp with
    main := m.beam inp.main
    secs := inp.secs.map m.beam
    motion := fun i k p => m.phase (inp.motion i k (m.phase p))
    sey := fun i => m.sey (inp.sey i)
    gasD := fun i k => m.gasDraws (S.gas i).unifFrac (inp.gasD i k)
    phVel := fun i k h => m.vec (inp.phVel i k (m.hit h))
    phEnds := fun i k => (m.pnt (inp.phEnds i k).1, m.pnt (inp.phEnds i k).2)
    sgVel := fun i k g => m.vec (inp.sgVel i k (m.seg g)) }

/-- The mirror image of the clouds; the counters are the same, nothing is said about the histograms. -/
def Image (m : Mirror K) (st st' : SimSt K) : Prop :=
  st'.clouds = st.clouds.map (fun c => { c with mps := m.mps c.mps }) ∧ st'.cnt = st.cnt ∧ st.cross = none ∧ st'.cross = none

end Mirror

variable [FloorRing K]

/-- The operation does not rebuild the macroparticles of a cloud (`check_for_regeneration` beyond its trigger). -/
def SimOp.noRebuild (S : SimCfg K) (st : SimSt K) : SimOp K → Prop
  | .maintain i np sk sr _ _ _ => ∀ c, st.clouds[i]? = some c → (np && !sr) = true →
      (S.full i).trigger (if np && !sk then c.mps.clean else c.mps) = false
  | _ => True

def noRebuildOps (S : SimCfg K) : List (SimOp K) → SimSt K → Prop
  | [], _ => True
  | op :: ops, st => op.noRebuild S st ∧ ∀ st', op.apply S st = .ok st' → noRebuildOps S ops st'

/-- No full regeneration takes place in a simulation. -/
def noRebuild (S : SimCfg K) : List (StepIn K) → SimSt K → Prop
  | [], _ => True
  | inp :: l, st => noRebuildOps S (inp.ops S st.clouds.length) st ∧ ∀ st', simTimeStep S inp st = .ok st' → noRebuild S l st'

end PyECLOUD
