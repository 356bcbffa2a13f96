import Verif.Model.PyHT
import Mathlib.Data.Real.Basic
import Mathlib.Data.NNReal.Defs

/-! # What is asked of the sizes of a slice: mean and variance of the positions of its particles -/

namespace PyECLOUD

/-- Mean of the coordinate `f` over the particles. -/
noncomputable def meanOf (f : ℝ × ℝ → ℝ) (pos : List (ℝ × ℝ)) : ℝ := (pos.map f).sum / pos.length

/-- Variance of the coordinate `f` over the particles. -/
noncomputable def varOf (f : ℝ × ℝ → ℝ) (pos : List (ℝ × ℝ)) : NNReal :=
  Real.toNNReal ((pos.map (fun q => (f q - meanOf f pos) ^ 2)).sum / pos.length)

end PyECLOUD
