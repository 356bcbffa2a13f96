import Verif.Model.EcRecord
import Verif.Model.Sources
import Mathlib.Analysis.Real.Sqrt

/-! # Sizes of a slice of the beam, as handed to the electron sources (PyEC4PyHT.py:553-584, gas_ionization_class.py:82-131) -/

namespace PyECLOUD

/-- `np.std`: square root of the mean squared distance from the mean (used at PyEC4PyHT.py:580-581). Real numbers, no rounding. -/
noncomputable def npStd (l : List ℝ) : ℝ := Real.sqrt (npMean (l.map (fun x => (x - npMean l) ^ 2)))

/-- `dummybeamtim.sigmax`, `dummybeamtim.sigmay` (PyEC4PyHT.py:559-560, 580-581). -/
noncomputable def dummySize (sl : SliceIn ℝ) : ℝ × ℝ :=
  if sl.pos.isEmpty || !sl.interacts then (0, 0) else (npStd (sl.pos.map (·.1)), npStd (sl.pos.map (·.2)))

/-- Candidate position of an electron made on the residual gas while the slice passes (gas_ionization_class.py:105-106, 113-114 with the
arguments of buildup_simulation.py:400-409 and PyEC4PyHT.py:553-584). -/
noncomputable def sliceGasPos (g : EcCfg ℝ) (ppm xAper yAper : ℝ) (sl : SliceIn ℝ) (unif : Bool) (u v : ℝ) : ℝ × ℝ :=
  gasGen xAper yAper (dummySize sl).1 (dummySize sl).2 (dummyBeam g ppm sl).xPos (dummyBeam g ppm sl).yPos unif u v

/-- `generate` of the residual gas for one cloud step of a slice (gas_ionization_class.py:82-131 with the beam of PyEC4PyHT.py:553-584). -/
noncomputable def sliceGas (outside : ℝ → ℝ → Bool) (unifFrac xAper yAper kIon v0 : ℝ) (g : EcCfg ℝ) (ppm dt : ℝ) (sl : SliceIn ℝ)
    (d : GasDraws ℝ) (s : MPs ℝ) : Except PyErr (MPs ℝ) :=
  gasGenerate outside unifFrac xAper yAper kIon v0 (dummyBeam g ppm sl).lam dt (dummySize sl).1 (dummySize sl).2
    (dummyBeam g ppm sl).xPos (dummyBeam g ppm sl).yPos d s

end PyECLOUD
