import Verif.Model.Dynamics

/-! # Specification: balances of energy and momentum along a tracked orbit -/

namespace PyECLOUD

variable {K : Type} [Field K]

/-- scalar product -/
def V3.dot (a b : V3 K) : K := a.x * b.x + a.y * b.y + a.z * b.z

/-- vector product -/
def V3.cross (a b : V3 K) : V3 K := ⟨a.y * b.z - a.z * b.y, a.z * b.x - a.x * b.z, a.x * b.y - a.y * b.x⟩

/-- sum -/
def V3.plus (a b : V3 K) : V3 K := ⟨a.x + b.x, a.y + b.y, a.z + b.z⟩

/-- difference -/
def V3.minus (a b : V3 K) : V3 K := ⟨a.x - b.x, a.y - b.y, a.z - b.z⟩

/-- multiple -/
def V3.times (c : K) (a : V3 K) : V3 K := ⟨c * a.x, c * a.y, c * a.z⟩

/-- velocity -/
def Phase.vel (p : Phase K) : V3 K := ⟨p.vx, p.vy, p.vz⟩

/-- position -/
def Phase.pos (p : Phase K) : V3 K := ⟨p.x, p.y, p.z⟩

/-- the position half a sub-step of length `d` before: in the leap-frog scheme positions and velocities belong to times that are half
a sub-step apart -/
def Phase.mid (d : K) (p : Phase K) : V3 K := p.pos.minus (V3.times (d / 2) p.vel)

end PyECLOUD
