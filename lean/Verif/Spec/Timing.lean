import Verif.Spec.Motion
import Verif.Model.Timing

/-!
# Specification vocabulary for the time stepping
-/

namespace PyECLOUD

variable {K : Type}

/-- Straight-line motion for a time `T`. -/
def freeFlight [Field K] (T : K) (p : Particle K) : Particle K :=
  Particle.move p ⟨p .x + p .vx * T, p .y + p .vy * T, p .z + p .vz * T, p .vx, p .vy, p .vz⟩

/-- no electric and no magnetic field at any particle -/
def Fields.Zero [Field K] (f : Fields K) : Prop :=
  ∀ i, f.ex.getD i 0 = 0 ∧ f.ey.getD i 0 = 0 ∧ f.bx.getD i 0 = 0 ∧ f.yb.getD i 0 = 0 ∧ f.bz.getD i 0 = 0

/-- the time for which a plan moves the particles, for a tracker whose own step is `dt` -/
def Plan.total [Field K] (p : Plan K) (dt : K) : K :=
  match p.dtSub with
  | none => (p.next : K) * dt
  | some d => (p.next : K) * ((p.nint : K) * d)

end PyECLOUD
