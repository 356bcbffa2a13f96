import Verif.Model.FurmanPivi
import Mathlib.Analysis.SpecialFunctions.Pow.Real
import Mathlib.Analysis.SpecialFunctions.Exp
import Mathlib.Analysis.SpecialFunctions.Trigonometric.DerivHyp

/-!
# Model of the yields and energy generators of sec_emission_model_furman_pivi.py

Real numbers; `**` is `Real.rpow` (energies and cosines are not negative). The special functions `erf`, `erfinv`,
`gammainc`, `gammaincinv` of scipy are parameters here; see `Spec.FPYield` for what is assumed of them.
-/

namespace PyECLOUD

open Real

/-- Parameters of the yields (sec_emission_model_furman_pivi.py:120-174). `clipE`, `clipR` are the cosines of
`theta_e_max`, `theta_r_max`, or 0 (lines 140-145, 154-159). -/
structure FPPar where
  scale : Bool
  shift : Bool
  useEcloudTheta : Bool
  p1EInf : ℝ
  p1Ehat : ℝ
  eEHat : ℝ
  w : ℝ
  p : ℝ
  e1 : ℝ
  e2 : ℝ
  clipE : ℝ
  p1RInf : ℝ
  eR : ℝ
  r : ℝ
  q : ℝ
  r1 : ℝ
  r2 : ℝ
  clipR : ℝ
  deltaTSHat : ℝ
  eHat0 : ℝ
  s : ℝ
  t1 : ℝ
  t2 : ℝ
  t3 : ℝ
  t4 : ℝ

/-- The parameters `t3`, `t4` set by the constructor (sec_emission_model_furman_pivi.py:168-174). -/
noncomputable def FPPar.init (P : FPPar) : FPPar :=
  if P.useEcloudTheta then { P with t3 := 0.7, t4 := 1 } else P

/-- The clipping cosine set by the constructor from an optional angle (sec_emission_model_furman_pivi.py:140-145,
154-159); angles outside the open interval fail the assertion. -/
noncomputable def fpClip : Option ℝ → Except PyErr ℝ
  | none => .ok 0
  | some th => if 0 < th ∧ th < π / 2 then .ok (cos th) else .error .assertion

/-- `np.clip(c, lo, 1.)`. -/
noncomputable def clip1 (lo c : ℝ) : ℝ := min (max c lo) 1

/-- `delta_e` (sec_emission_model_furman_pivi.py:231-247). -/
noncomputable def fpDeltaE (P : FPPar) (e cth : ℝ) : ℝ :=
  (P.p1EInf + (P.p1Ehat - P.p1EInf) * exp (-(|e - P.eEHat| / P.w) ^ P.p / P.p)) *
    (if P.scale then
      if P.useEcloudTheta then 1 else 1 + P.e1 * (1 - clip1 P.clipE cth ^ P.e2)
    else 1)

/-- `delta_r` (sec_emission_model_furman_pivi.py:249-262). -/
noncomputable def fpDeltaR (P : FPPar) (e cth : ℝ) : ℝ :=
  P.p1RInf * (1 - exp (-(e / P.eR) ^ P.r)) *
    (if P.scale then 1 + P.r1 * (1 - clip1 P.clipR cth ^ P.r2) else 1)

/-- `_D` (sec_emission_model_furman_pivi.py:284-287). -/
noncomputable def fpD (s x : ℝ) : ℝ := s * x / (s - 1 + x ^ s)

/-- Energy of the maximum of the true secondary yield (sec_emission_model_furman_pivi.py:269-272). -/
noncomputable def fpEHat (P : FPPar) (cth : ℝ) : ℝ :=
  if P.shift then P.eHat0 * (1 + P.t3 * (1 - cth ^ P.t4)) else P.eHat0

/-- `delta_ts` (sec_emission_model_furman_pivi.py:264-282). -/
noncomputable def fpDeltaTS (P : FPPar) (e cth : ℝ) : ℝ :=
  P.deltaTSHat * fpD P.s (e / fpEHat P cth) *
    (if P.scale then
      if P.useEcloudTheta then exp (0.5 * (1 - cth)) else 1 + P.t1 * (1 - cth ^ P.t2)
    else 1)

/-- The number of electrons emitted by one impact with yields `de`, `dr`, given the draw `u` of the event and the Poisson
numbers `l`, in the order they are drawn: one for elastic and rediffused, for a true secondary the first Poisson number cut
at `M_cut` (sec_emission_model_furman_pivi.py:202-210, 405-425, 516-521). -/
noncomputable def fpNumber (excl : Bool) (mCut : ℕ) (de dr u : ℝ) (l : List ℕ) : Except PyErr ℕ :=
  if fpKind excl de dr u = .true' then
    (poissonCut mCut (fun a _ => l.getD (a + 1) 0) 12 0 [l.getD 0 0]).map List.sum
  else .ok 1

/-- Width used for backscattered energies (sec_emission_model_furman_pivi.py:297-305). -/
noncomputable def fpSigma (modified : Bool) (sigmaE e0 : ℝ) : ℝ :=
  if modified then (sigmaE - 1.88) + 2.5 * (1 + tanh (1e-2 * (e0 - 1.5e2))) else sigmaE

/-- `get_energy_backscattered` for one electron (sec_emission_model_furman_pivi.py:289-305). -/
noncomputable def fpEnBack (erf erfinv : ℝ → ℝ) (sg e0 u : ℝ) : ℝ :=
  e0 + √2 * sg * erfinv ((u - 1) * erf (e0 / (√2 * sg)))

/-- `get_energy_rediffused` for one electron (sec_emission_model_furman_pivi.py:307-313). -/
noncomputable def fpEnRed (q e0 u : ℝ) : ℝ := u ^ (1 / (q + 1)) * e0

/-- `get_energy_true_sec` for one electron without the ECLOUD energies (sec_emission_model_furman_pivi.py:338-353), `nn`
the number of electrons of the event; list indices wrap as in Python. -/
noncomputable def fpEnTrue (gammainc gammaincinv : ℝ → ℝ → ℝ) (epsN pN : List ℝ) (nn : ℤ) (e0 u : ℝ) : Except PyErr ℝ :=
  match pyGet epsN (nn - 1), pyGet pN (nn - 1) with
  | .ok eps, .ok p =>
    let area := gammainc p (e0 / eps)
    let xx := u / (1 / area)
    .ok (eps * gammaincinv p (if xx < 1e-12 then 0 else xx))
  | .error e, _ => .error e
  | _, .error e => .error e

end PyECLOUD
