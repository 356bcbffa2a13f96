import Verif.Spec.Mirror
import Verif.Model.Coupled

/-!
# Specification vocabulary: the mirror image of a simulation with its fields

Electric fields are mirrored like positions; a magnetic field is an axial vector: its components get the sign of the component
and the sign of the mirror as a whole.
-/

namespace PyECLOUD

namespace Mirror

variable {K : Type} [Field K] [LinearOrder K]

/-- minus one for an odd number of changed coordinates -/
def det (m : Mirror K) : K := m.sx * m.sy * m.sz

def eVec (m : Mirror K) (e : V3 K) : V3 K := ⟨m.sx * e.x, m.sy * e.y, m.sz * e.z⟩

def bVec (m : Mirror K) (b : V3 K) : V3 K := ⟨m.det * m.sx * b.x, m.det * m.sy * b.y, m.det * m.sz * b.z⟩

/-- The field arrays of a cloud. -/
def fields (m : Mirror K) (f : Fields K) : Fields K :=
  ⟨f.ex.map (m.sx * ·), f.ey.map (m.sy * ·), f.bx.map (m.det * m.sx * ·), f.yb.map (m.det * m.sy * ·), f.bz.map (m.det * m.sz * ·)⟩

/-- The field of a beam or of the clouds at the points of the transverse plane. -/
def field2 (m : Mirror K) (f : K → K → K × K) : K → K → K × K := fun x y => m.pnt (f (m.sx * x) (m.sy * y))

/-- A tracker in the mirror image. -/
def tracker (m : Mirror K) (t : TrackerObj K) : TrackerObj K where
  dt := t.dt
  nSub := t.nSub
  step := fun s f => (t.step (m.mps s) (m.fields f)).map m.mps
  stepCustom := fun s f d n => (t.stepCustom (m.mps s) (m.fields f) d n).map m.mps

variable {G : Type} [AddCommGroup G]

/-- `p'` is the field solver `p` in the mirror image, where `σ` is the mirror image of densities: the density of the mirrored
macroparticles is the mirrored density, and the field of a mirrored density is the mirrored field. A solver on a symmetric grid is
its own mirror image. -/
structure PicImage (m : Mirror K) (σ : G →+ G) (p p' : PicFun K G) : Prop where
  scatter : ∀ q l, p'.scatter q (l.map (fun a => (m.sx * a.1, m.sy * a.2.1, a.2.2))) = σ (p.scatter q l)
  solve : ∀ g, p'.solve (σ g) = m.field2 (p.solve g)

/-- A solver seen from the mirrored side. -/
def pic (m : Mirror K) (p : PicFun K G) : PicFun K G where
  scatter := fun q l => p.scatter q (l.map (fun a => (m.sx * a.1, m.sy * a.2.1, a.2.2)))
  solve := fun g => m.field2 (p.solve g)

/-- The node of a symmetric axis of `n` nodes at the mirrored place of node `i`. -/
def node (s : K) (n i : ℕ) : ℕ := if s = 1 then i else n + 1 - i

/-- The settings in the mirror image; `p'` is the solver there. -/
def cplCfg (m : Mirror K) (p' : PicFun K G) (C : CplCfg K G) : CplCfg K G :=
  { C with S := m.cfg C.S, pic := p', tr := fun i => m.tracker (C.tr i) }

def cplIn (m : Mirror K) (S : SimCfg K) (inp : CplIn K) : CplIn K := { inp with step := m.step S inp.step, beam := m.field2 inp.beam }

/-- The mirror image of the clouds and of the densities. -/
def CplImage (m : Mirror K) (σ : G →+ G) (st st' : CplSt K G) : Prop :=
  m.Image st.sim st'.sim ∧ st'.rho = ⟨σ st.rho.rho, st.rho.cloudRho.map σ, st.rho.solved.map σ⟩ ∧ st'.tLast = st.tLast

end Mirror

variable {K G : Type} [Field K] [LinearOrder K] [FloorRing K] [AddCommGroup G]

/-- No full regeneration takes place in a simulation with fields. -/
def cplNoRebuild (C : CplCfg K G) : List (CplIn K) → CplSt K G → Prop
  | [], _ => True
  | inp :: l, st => (∀ s1 s2, cplTurns C inp (st.field C) (List.range st.sim.clouds.length) st.sim = .ok s1 →
      simRun C.S [.cross inp.step.dt inp.step.xD] s1 = .ok s2 → noRebuildOps C.S (inp.step.maintOps s2.clouds.length) s2) ∧
      ∀ st', cplStep C inp st = .ok st' → cplNoRebuild C l st'

end PyECLOUD
