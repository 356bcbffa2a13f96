import Verif.Model.BeamMap
import Mathlib.Probability.Distributions.Gaussian.Real

/-!
# Fields of a centred beam in an elliptical chamber, charge in a cell
-/

namespace PyECLOUD

open Real

/-- A point of the wall of the elliptical chamber with half axes `a`, `b`. -/
noncomputable def ellWall (a b φ : ℝ) : ℂ := ⟨a * cos φ, b * sin φ⟩

/-- Potential of a line of unit charge per metre at the origin. -/
noncomputable def linePot (eps0 : ℝ) (z : ℂ) : ℝ := -(1 / (2 * π * eps0)) * log ‖z‖

/-- The field `e` at `(x, y)` is minus the gradient of `P`. -/
def GradAt (P : ℂ → ℝ) (x y : ℝ) (e : ℂ) : Prop :=
  HasDerivAt (fun t : ℝ => P ⟨t, y⟩) (-e.re) x ∧ HasDerivAt (fun t : ℝ => P ⟨x, t⟩) (-e.im) y

/-- `acosh` is an inverse of the hyperbolic cosine. -/
def IsAcosh (acosh : ℂ → ℂ) : Prop := ∀ w, Complex.cosh (acosh w) = w

/-- Normalised transverse density of the beam. -/
noncomputable def beamDens (px py sx sy x y : ℝ) : ℝ :=
  1 / (2 * π * sx * sy) * exp (-(x - px) ^ 2 / (2 * sx ^ 2) - (y - py) ^ 2 / (2 * sy ^ 2))

/-- What a user has to give for the choice of `beam_field_file`. -/
def MapSet.Complete {K : Type} [Zero K] (ellip : Bool) (c : MapSet K) : Prop :=
  match c.sel with
  | .fd => c.dh ≠ none
  | .be => ellip = true ∧ c.nx ≠ none ∧ c.ny ≠ none ∧ c.nimag ≠ none ∧ c.xPos = 0 ∧ c.yPos = 0
  | .multigrid => c.dh ≠ none ∧ c.fTel ≠ none ∧ c.target = true ∧ c.nDiscard ≠ none ∧ c.nMin ≠ none ∧ c.saveAs = none
  | .file _ => True

end PyECLOUD
