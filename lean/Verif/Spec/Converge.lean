import Verif.Model.Dynamics
import Mathlib.Analysis.Calculus.Deriv.Basic

/-! # Specification: the true motion of an electron and the smoothness of the fields -/

namespace PyECLOUD

/-- `P` is a motion of a particle with charge-to-mass ratio `kappa` during the time from 0 to `T` in the electric field `E t x y` and
the magnetic field `B x y`: the position changes with the velocity and the velocity with `kappa (E + v × B)`. -/
structure LorentzOrbit (kappa T : ℝ) (E : ℝ → ℝ → ℝ → V3 ℝ) (B : ℝ → ℝ → V3 ℝ) (P : ℝ → Phase ℝ) : Prop where
  x : ∀ t ∈ Set.Icc 0 T, HasDerivAt (fun t => (P t).x) (P t).vx t
  y : ∀ t ∈ Set.Icc 0 T, HasDerivAt (fun t => (P t).y) (P t).vy t
  z : ∀ t ∈ Set.Icc 0 T, HasDerivAt (fun t => (P t).z) (P t).vz t
  vx : ∀ t ∈ Set.Icc 0 T, HasDerivAt (fun t => (P t).vx) (kappa * ((E t (P t).x (P t).y).x +
    ((P t).vy * (B (P t).x (P t).y).z - (P t).vz * (B (P t).x (P t).y).y))) t
  vy : ∀ t ∈ Set.Icc 0 T, HasDerivAt (fun t => (P t).vy) (kappa * ((E t (P t).x (P t).y).y +
    ((P t).vz * (B (P t).x (P t).y).x - (P t).vx * (B (P t).x (P t).y).z))) t
  vz : ∀ t ∈ Set.Icc 0 T, HasDerivAt (fun t => (P t).vz) (kappa * ((E t (P t).x (P t).y).z +
    ((P t).vx * (B (P t).x (P t).y).y - (P t).vy * (B (P t).x (P t).y).x))) t

/-- each component of a field is at most `M` -/
def V3.Within (b : V3 ℝ) (M : ℝ) : Prop := |b.x| ≤ M ∧ |b.y| ≤ M ∧ |b.z| ≤ M

/-- the difference of two field values -/
def V3.diff (b c : V3 ℝ) : V3 ℝ := ⟨b.x - c.x, b.y - c.y, b.z - c.z⟩

/-- a field that during the time from 0 to `T` and in the region `S` is bounded by `M` and changes by at most `L` per unit of time and
of each coordinate -/
def FieldSmooth (S : Set (ℝ × ℝ)) (T M L : ℝ) (f : ℝ → ℝ → ℝ → V3 ℝ) : Prop :=
  (∀ t ∈ Set.Icc 0 T, ∀ q ∈ S, (f t q.1 q.2).Within M) ∧
  ∀ t ∈ Set.Icc 0 T, ∀ t' ∈ Set.Icc 0 T, ∀ q ∈ S, ∀ q' ∈ S,
    ((f t q.1 q.2).diff (f t' q'.1 q'.2)).Within (L * (|t - t'| + |q.1 - q'.1| + |q.2 - q'.2|))

/-- two states whose six coordinates differ by at most `c` -/
def Phase.Near (p q : Phase ℝ) (c : ℝ) : Prop :=
  |p.x - q.x| ≤ c ∧ |p.y - q.y| ≤ c ∧ |p.z - q.z| ≤ c ∧ |p.vx - q.vx| ≤ c ∧ |p.vy - q.vy| ≤ c ∧ |p.vz - q.vz| ≤ c

end PyECLOUD
