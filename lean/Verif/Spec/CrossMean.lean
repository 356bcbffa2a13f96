import Verif.Spec.Ionisation
import Verif.Spec.EmitMean

/-! # Specification: charge of new macroparticles weighted with a function of the place -/

namespace PyECLOUD

/-- Sum over the new macroparticles of their charge times a function of their transverse position (1: the charge; 1 in a region and 0
elsewhere: the charge in that region). -/
noncomputable def placedCharge (φ : ℝ → ℝ → ℝ) (m : NewMPs ℝ) : ℝ :=
  (List.zipWith (fun q w => q * w) (m.arr .nel) (List.zipWith φ (m.arr .x) (m.arr .y))).sum

end PyECLOUD
