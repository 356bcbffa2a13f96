import Verif.Spec.Cloud
import Verif.Model.CrossIon
import Verif.Spec.Rounding

/-!
# Specification of the products of cross ionisation
-/

namespace PyECLOUD

variable {K : Type}

/-- Each projectile repeated as many times as macroparticles are created from it. -/
def perProjectile (proj : List (Particle K)) (counts : List ℤ) : List (Particle K) :=
  (proj.zip counts).flatMap (fun q => List.replicate q.2.toNat q.1)

/-- Ionisations caused by one projectile of size `nel` and speed `v` in the time `dt`: cross section times target
density times path length times number of projectile particles. -/
def ionisations [Field K] (sigma dens v dt nel : K) : K := sigma * dens * (v * dt) * nel

/-- The new macroparticles `m` of one product: `counts i` of them at the place of projectile `i`, all of size `ref`,
and as many entries in every array. -/
structure IsBatch (proj : List (Particle K)) (counts : List ℤ) (ref : K) (m : NewMPs K) : Prop where
  n_eq : m.n = counts.sum
  nel : m.arr .nel = List.replicate m.n.toNat ref
  x : m.arr .x = (perProjectile proj counts).map (fun p => p .x)
  y : m.arr .y = (perProjectile proj counts).map (fun p => p .y)
  z : m.arr .z = (perProjectile proj counts).map (fun p => p .z)
  vx : (m.arr .vx).length = m.n.toNat
  vy : (m.arr .vy).length = m.n.toNat
  vz : (m.arr .vz).length = m.n.toNat

/-- Two macroparticles at the same place. -/
def SamePlace (p q : Particle K) : Prop := p .x = q .x ∧ p .y = q .y ∧ p .z = q .z

/-- Piecewise linear interpolation of the values `sig` on the nodes `x0, x0 + dx, ...`: the value in the `i`-th
interval at the relative position `r`. -/
def lerp [Field K] (a b r : K) : K := (1 - r) * a + r * b

end PyECLOUD
