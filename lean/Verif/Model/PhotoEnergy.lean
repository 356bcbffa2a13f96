import Verif.Model.Emission
import Mathlib.Analysis.SpecialFunctions.Trigonometric.Arctan
import Mathlib.Analysis.SpecialFunctions.Exp

/-!
# The remaining photoelectron energy distributions of electron_emission.py

`scipy.stats.cauchy` and `numpy.random.lognormal` are library functions; they enter by their formulas. Uniform
draws are streams of numbers in `[0, 1)`, normal draws are streams of reals.
-/

namespace PyECLOUD

open Real

/-- `stats.cauchy.cdf(x, loc, scale)`, used in electron_emission.py:271. -/
noncomputable def cauchyCdf (x loc scale : ℝ) : ℝ := 1 / 2 + 1 / π * arctan ((x - loc) / scale)

/-- `stats.cauchy.ppf(q, loc, scale)`, used in electron_emission.py:276. -/
noncomputable def cauchyPpf (q loc scale : ℝ) : ℝ := loc + scale * tan (π * q - π / 2)

/-- `_lorentz` (electron_emission.py:267-276): `xx_min` is computed once by the constructor, `xx_max` is 1. -/
noncomputable def lorentzEnergies (sigma mean : ℝ) (n : ℕ) (u : ℕ → ℝ) : List ℝ :=
  let xxMin := cauchyCdf 0 mean sigma
  (List.range n).map (fun i => cauchyPpf (u i * (1 - xxMin) + xxMin) mean sigma)

/-- `_lognormal.__call__` (electron_emission.py:240-242): `random.lognormal(mean, sigma)` is the exponential of a
normal number. -/
noncomputable def lognormalEnergies (sigma mean : ℝ) (n : ℕ) (g : ℕ → ℝ) : List ℝ :=
  (List.range n).map (fun i => exp (mean + sigma * g i))

/-- The classes known to `get_energy_distribution_func` (electron_emission.py:283-292). -/
inductive EnergyDist where
  | lognormal
  | gaussian
  | rect
  | mono
  | lorentz
  deriving DecidableEq

/-- `get_energy_distribution_func` (electron_emission.py:281-296): any other string raises. -/
def energyDistOf (name : String) : Except PyErr EnergyDist :=
  if name = "lognormal" then .ok .lognormal
  else if name = "gaussian" then .ok .gaussian
  else if name = "rect" then .ok .rect
  else if name = "mono" then .ok .mono
  else if name = "lorentz" then .ok .lorentz
  else .error .valueError

/-- The object returned by `get_energy_distribution_func(name, e_pe_sigma, e_pe_max)`, called for `n` electrons
(electron_emission.py:296, gen_photoemission_class.py:86, 286): `u` uniform draws, `g` normal draws, `rounds` the
normal draws of the rejection loop. -/
noncomputable def EnergyDist.draw (d : EnergyDist) (sigma mean : ℝ) (n : ℕ) (u g : ℕ → ℝ) (rounds : List (ℕ → ℝ)) :
    Except PyErr (List ℝ) :=
  match d with
  | .lognormal => .ok (lognormalEnergies sigma mean n g)
  | .gaussian => gaussEnergies sigma mean n g rounds
  | .rect => .ok (rectEnergies sigma mean n u)
  | .mono => .ok (monoEnergies mean n)
  | .lorentz => .ok (lorentzEnergies sigma mean n u)

end PyECLOUD
