import Verif.Model.FPYield
import Mathlib.Data.Nat.Choose.Basic

/-!
# Densities and distributions offered by the Furman-Pivi model

sec_emission_model_furman_pivi.py:315-331 and 546-629. The special functions are parameters, as in Model/FPYield; arrays of energies are taken
one entry at a time where the functions act on each entry.
-/

namespace PyECLOUD

open Real

/-- `backscattered_energy_PDF` (sec_emission_model_furman_pivi.py:549-563). -/
noncomputable def fpPdfBack (erf : ℝ → ℝ) (modified : Bool) (sigmaE energy e0 : ℝ) : ℝ :=
  let sg := fpSigma modified sigmaE e0
  2 * exp (-(energy - e0) ^ 2 / (2 * sg ^ 2)) / (√(2 * π) * sg * erf (e0 / (√2 * sg)))

/-- `backscattered_energy_CDF` (sec_emission_model_furman_pivi.py:565-568): `sigma_e` is an argument, 2 if it is left out. -/
noncomputable def fpCdfBack (erf : ℝ → ℝ) (energy e0 : ℝ) (sigmaArg : Option ℝ) : ℝ :=
  let sg := sigmaArg.getD 2
  1 - erf ((e0 - energy) / (√2 * sg)) / erf (e0 / (√2 * sg))

/-- `rediffused_energy_PDF` (sec_emission_model_furman_pivi.py:570-575): `qq` is an argument, 0.5 if it is left out. -/
noncomputable def fpPdfRed (energy e0 : ℝ) (qArg : Option ℝ) : Except PyErr ℝ :=
  if e0 < 0 then .error .valueError
  else .ok ((qArg.getD 0.5 + 1) * energy ^ (qArg.getD 0.5) / e0 ^ (qArg.getD 0.5 + 1))

/-- `rediffused_energy_CDF` (sec_emission_model_furman_pivi.py:577-578). -/
noncomputable def fpCdfRed (energy e0 : ℝ) (qArg : Option ℝ) : ℝ := energy ^ (qArg.getD 0.5 + 1) / e0 ^ (qArg.getD 0.5 + 1)

/-- `_true_sec_energy_CDF` for one number `nn` of electrons and an array of energies (sec_emission_model_furman_pivi.py:315-331): the distribution
and the area before the normalisation to the last entry. -/
noncomputable def fpCdfTrue (gammainc : ℝ → ℝ → ℝ) (epsN pN : List ℝ) (nn : ℤ) (energy : List ℝ) : Except PyErr (List ℝ × List ℝ) :=
  match pyGet epsN (nn - 1), pyGet pN (nn - 1) with
  | .ok eps, .ok p =>
    let area := energy.map (fun e => gammainc p (e / eps))
    match area.getLast? with
    | none => .error .indexError
    | some a => .ok (area.map (· / a), area)
  | .error e, _ => .error e
  | _, .error e => .error e

/-- `choice` of the model. -/
inductive FPChoice where
  | poisson
  | binomial
  | other

/-- The weights of the numbers 0, ..., `M_cut` of electrons (sec_emission_model_furman_pivi.py:587-597), for the number `nn` asked for. -/
noncomputable def fpWeights (choice : FPChoice) (mCut nn : ℕ) (delta : ℝ) : Except PyErr (List ℝ) :=
  match choice with
  | .poisson => .ok ((List.range (mCut + 1)).map (fun k => delta ^ k / (k.factorial : ℝ) * exp (-delta)))
  | .binomial =>
    let p := delta / mCut
    .ok ((List.range (mCut + 1)).map (fun k => (Nat.choose mCut nn : ℝ) * p ^ k * (1 - p) ^ (mCut - k)))
  | .other => .error .valueError

/-- The probability of `nn` electrons returned by `true_sec_energy_PDF` (sec_emission_model_furman_pivi.py:580-598). -/
noncomputable def fpProb (choice : FPChoice) (mCut nn : ℕ) (delta : ℝ) : Except PyErr ℝ :=
  if nn = 0 then .error .valueError
  else do
    let w ← fpWeights choice mCut nn delta
    match (w.map (· / w.sum))[nn]? with
    | some v => .ok v
    | none => .error .indexError

/-- `energy**(p_n_curr - 1) * np.exp(-energy / eps_curr)` (sec_emission_model_furman_pivi.py:606). -/
noncomputable def fpShape (eps p : ℝ) (energy : List ℝ) : List ℝ := energy.map (fun e => e ^ (p - 1) * exp (-e / eps))

/-- `true_sec_energy_PDF` (sec_emission_model_furman_pivi.py:580-610) for an array of energies: the normalised density of one of `nn` electrons and the
probability of `nn` electrons. `simps` is `scipy.integrate.simps`. With an area of 0 the code divides by it and goes on with values that are no numbers;
here they are 0. -/
noncomputable def fpPdfTrue (simps : List ℝ → List ℝ → ℝ) (choice : FPChoice) (mCut : ℕ) (epsN pN : List ℝ) (delta : ℝ) (nn : ℕ) (e0 : ℝ)
    (energy : List ℝ) : Except PyErr (List ℝ × ℝ) := do
  let P ← fpProb choice mCut nn delta
  let eps ← pyGet epsN ((nn : ℤ) - 1)
  let p ← pyGet pN ((nn : ℤ) - 1)
  let f := (fpShape eps p energy).map ((if e0 = 0 then 0 else 1) * ·)
  return (f.map (· / simps f energy), P)

/-- The sum of `average_true_sec_energy_PDF` over the numbers in `nns` (sec_emission_model_furman_pivi.py:615-627; the branch of `if False` is never
taken). -/
noncomputable def fpAverageSum (simps : List ℝ → List ℝ → ℝ) (choice : FPChoice) (mCut : ℕ) (epsN pN : List ℝ) (delta e0 : ℝ) (energy : List ℝ) :
    List ℕ → List ℝ → Except PyErr (List ℝ)
  | [], acc => .ok acc
  | nn :: l, acc => do
    let r ← fpPdfTrue simps choice mCut epsN pN delta nn e0 energy
    fpAverageSum simps choice mCut epsN pN delta e0 energy l (List.zipWith (fun a f => a + f * r.2 * nn) acc r.1)

/-- `average_true_sec_energy_PDF` (sec_emission_model_furman_pivi.py:612-629). -/
noncomputable def fpAverage (simps : List ℝ → List ℝ → ℝ) (choice : FPChoice) (mCut : ℕ) (epsN pN : List ℝ) (delta e0 : ℝ) (energy : List ℝ) :
    Except PyErr (List ℝ) := do
  let f ← fpAverageSum simps choice mCut epsN pN delta e0 energy ((List.range mCut).map (· + 1)) (energy.map (fun _ => 0))
  return f.map (· / simps f energy)

end PyECLOUD
