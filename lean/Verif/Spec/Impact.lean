import Verif.Model.Impact
import Verif.Spec.Cloud

/-! # Specification vocabulary for the impact step -/

namespace PyECLOUD

variable {K : Type} [Field K] [LinearOrder K]

/-- the emitted macroparticle leaves from the impact point, on the segment that was hit -/
def SameSpot (i : Impact K) (e : Emit K) : Prop := e.x = i.x ∧ e.y = i.y ∧ e.z = i.z ∧ e.seg = i.seg

/-- the replaced macroparticle leaves from the impact point, or it is an empty one parked at the origin
(absorbed electrons in the Furman-Pivi model) -/
def LeftFrom (i : Impact K) (e : Emit K) : Prop :=
  SameSpot i e ∨ (e.nel = 0 ∧ e.x = 0 ∧ e.y = 0 ∧ e.z = 0 ∧ e.seg = i.seg)

/-- What the impact step needs from an emission model: one replacement per impact, everything is emitted
from an impact point (empty ones may be parked at the origin), and the reported emitted charge is that of the emitted macroparticles. -/
structure SeyOk (imps : List (Impact K)) (out : SeyOut K) : Prop where
  replace : List.Forall₂ LeftFrom imps out.replace
  new : ∀ e ∈ out.new, ∃ i ∈ imps, SameSpot i e
  charge : out.nelEmit.sum = (out.replace.map (fun e => e.nel)).sum + (out.new.map (fun e => e.nel)).sum

/-- the impact record belongs to the macroparticle: same size and velocity, kinetic energy of it -/
def ImpactOf (sq : K → K) (ke : K) (p : Particle K) (i : Impact K) : Prop :=
  i.nel = p .nel ∧ i.vx = p .vx ∧ i.vy = p .vy ∧ i.vz = p .vz ∧
    i.en = ke * sq (p .vx * p .vx + p .vy * p .vy + p .vz * p .vz) * sq (p .vx * p .vx + p .vy * p .vy + p .vz * p .vz)

/-- an emitted macroparticle as a particle of the cloud: its last impact is now -/
def Emit.particle (lifetime : Bool) (tt : K) (e : Emit K) : Particle K
  | .tl => if lifetime then tt else -1
  | .x => e.x
  | .y => e.y
  | .z => e.z
  | .vx => e.vx
  | .vy => e.vy
  | .vz => e.vz
  | .nel => e.nel

/-- its kinetic energy, with `sq` the square root -/
def Emit.kin (sq : K → K) (ke : K) (e : Emit K) : K :=
  ke * sq (e.vx ^ 2 + e.vy ^ 2 + e.vz ^ 2) * sq (e.vx ^ 2 + e.vy ^ 2 + e.vz ^ 2)

/-- the macroparticle is outside the chamber -/
def Chamber.out (ch : Chamber K) (p : Particle K) : Bool := ch.outside (p .x) (p .y)

end PyECLOUD
