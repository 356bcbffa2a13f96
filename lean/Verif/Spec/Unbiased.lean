import Verif.Spec.Regen
import Mathlib.MeasureTheory.Constructions.Pi
import Mathlib.MeasureTheory.Measure.Lebesgue.Basic

/-! # Specification: charge in a cell of phase space, averages over the random numbers of a call -/

namespace PyECLOUD

variable {K : Type} [Field K] [LinearOrder K] [FloorRing K]

/-- The cell of a macroparticle on a grid with steps `st`: along each axis the nearest node (half-way: the even one). -/
def pointCell (c : FullCfg K) (st : Steps K) (p : Particle K) : Cell :=
  cellOf c st (p .x) (p .y) (p .vx) (p .vy) (p .vz)

/-- the electrons in a cell -/
def cellCharge (c : FullCfg K) (st : Steps K) (l : List (Particle K)) (k : Cell) : K :=
  totalCharge (l.filter (fun p => decide (pointCell c st p = k)))

/-- The charge of a cloud weighted with a function of the macroparticles (for a function that is 1 in some region of
phase space and 0 elsewhere: the charge in that region). -/
def amount (φ : Particle K → K) (l : List (Particle K)) : K := (l.map (fun p => p .nel * φ p)).sum

/-- `n` independent random numbers, uniform between 0 and 1 -/
noncomputable def uniformDraws (n : ℕ) : MeasureTheory.Measure (Fin n → ℝ) :=
  MeasureTheory.Measure.pi (fun _ => MeasureTheory.volume.restrict (Set.Icc (0 : ℝ) 1))

end PyECLOUD
