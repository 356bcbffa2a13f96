import Verif.Model.Dynamics
import Mathlib.MeasureTheory.Constructions.Pi
import Mathlib.MeasureTheory.Measure.Lebesgue.Basic

/-! # Specification: volumes in phase space -/

namespace PyECLOUD

open MeasureTheory

/-- the electron with position `p.1` and velocity `p.2` -/
def toPhase (p : (Fin 3 → ℝ) × (Fin 3 → ℝ)) : Phase ℝ := ⟨p.1 0, p.1 1, p.1 2, p.2 0, p.2 1, p.2 2⟩

/-- volume, in the six dimensions of position and velocity, of a set of electrons -/
noncomputable def phaseVolume (S : Set (Phase ℝ)) : ENNReal := volume (toPhase ⁻¹' S)

/-- a motion of electrons that neither compresses nor stretches any (measurable) set of them -/
def PreservesVolume (f : Phase ℝ → Phase ℝ) : Prop :=
  ∀ S : Set (Phase ℝ), MeasurableSet (toPhase ⁻¹' S) → phaseVolume (f '' S) = phaseVolume S

/-- a field, as a function of the transverse position, is measurable in each component -/
def FieldMeasurable (f : ℝ → ℝ → V3 ℝ) : Prop :=
  Measurable (fun q : ℝ × ℝ => (f q.1 q.2).x) ∧ Measurable (fun q : ℝ × ℝ => (f q.1 q.2).y) ∧
    Measurable (fun q : ℝ × ℝ => (f q.1 q.2).z)

end PyECLOUD
