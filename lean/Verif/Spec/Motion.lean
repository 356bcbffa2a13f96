import Verif.Spec.Cloud
import Verif.Model.Dynamics
import Mathlib.Analysis.Calculus.Deriv.Basic

/-!
# Specification vocabulary for the trackers

Speed, the phase of a particle of the abstract cloud, and the equation of motion of an electron.
-/

namespace PyECLOUD

variable {K : Type}

/-- square of the speed -/
def speedSq [Field K] (p : Particle K) : K := p .vx * p .vx + p .vy * p .vy + p .vz * p .vz

/-- position and velocity of a particle -/
def Particle.phase (p : Particle K) : Phase K := ⟨p .x, p .y, p .z, p .vx, p .vy, p .vz⟩

/-- the same macroparticle (size, last impact time) with another position and velocity -/
def Particle.move (p : Particle K) (q : Phase K) : Particle K
  | .x => q.x
  | .y => q.y
  | .z => q.z
  | .vx => q.vx
  | .vy => q.vy
  | .vz => q.vz
  | .nel => p .nel
  | .tl => p .tl

/-- `T` is a motion of a particle with charge-to-mass ratio `kappa` in the uniform fields `e`, `b`:
the position changes with the velocity and the velocity with `kappa (e + v × b)`. -/
structure LorentzMotion (kappa : ℝ) (e b : V3 ℝ) (T : ℝ → Phase ℝ) : Prop where
  x : ∀ t, HasDerivAt (fun t => (T t).x) (T t).vx t
  y : ∀ t, HasDerivAt (fun t => (T t).y) (T t).vy t
  z : ∀ t, HasDerivAt (fun t => (T t).z) (T t).vz t
  vx : ∀ t, HasDerivAt (fun t => (T t).vx) (kappa * (e.x + ((T t).vy * b.z - (T t).vz * b.y))) t
  vy : ∀ t, HasDerivAt (fun t => (T t).vy) (kappa * (e.y + ((T t).vz * b.x - (T t).vx * b.z))) t
  vz : ∀ t, HasDerivAt (fun t => (T t).vz) (kappa * (e.z + ((T t).vx * b.y - (T t).vy * b.x))) t

end PyECLOUD
