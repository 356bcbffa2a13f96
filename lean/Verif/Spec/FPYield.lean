import Verif.Model.FPYield
import Mathlib.Analysis.SpecialFunctions.Gamma.Basic
import Mathlib.Topology.Algebra.InfiniteSum.Basic
import Mathlib.MeasureTheory.Integral.IntervalIntegral.Basic

/-!
# Specification vocabulary for the Furman-Pivi yields and energies
-/

namespace PyECLOUD

open Real

/-- Physically meaningful parameters. -/
structure FPPar.Valid (P : FPPar) : Prop where
  p1EInf : 0 ≤ P.p1EInf
  p1Ehat : 0 ≤ P.p1Ehat
  w : 0 < P.w
  p : 0 < P.p
  e1 : 0 ≤ P.e1
  e2 : 0 ≤ P.e2
  clipE : 0 ≤ P.clipE ∧ P.clipE ≤ 1
  p1RInf : 0 ≤ P.p1RInf
  eR : 0 < P.eR
  r : 0 < P.r
  q : -1 < P.q
  r1 : 0 ≤ P.r1
  r2 : 0 ≤ P.r2
  clipR : 0 ≤ P.clipR ∧ P.clipR ≤ 1
  deltaTSHat : 0 ≤ P.deltaTSHat
  eHat0 : 0 < P.eHat0
  s : 1 < P.s
  t1 : 0 ≤ P.t1
  t2 : 0 ≤ P.t2
  t3 : 0 ≤ P.t3
  t4 : 0 ≤ P.t4

/-- The error function. -/
noncomputable def erfR (x : ℝ) : ℝ := 2 / √π * ∫ t in (0 : ℝ)..x, exp (-t ^ 2)

/-- The regularised lower incomplete gamma function. -/
noncomputable def gammaP (a x : ℝ) : ℝ := (∫ t in (0 : ℝ)..x, t ^ (a - 1) * exp (-t)) / Gamma a

/-- `f` inverts the error function. -/
def IsErfInv (f : ℝ → ℝ) : Prop := ∀ x, f (erfR x) = x

/-- `f a` inverts the incomplete gamma function of parameter `a`. -/
def IsGammaInv (f : ℝ → ℝ → ℝ) : Prop := ∀ a, 0 < a → ∀ x, 0 ≤ x → f a (gammaP a x) = x

/-- Distribution function of backscattered energies, eq. (26) of the Furman-Pivi paper integrated
(`backscattered_energy_CDF`). -/
noncomputable def backCDF (sg e0 e : ℝ) : ℝ := 1 - erfR ((e0 - e) / (√2 * sg)) / erfR (e0 / (√2 * sg))

/-- Distribution function of rediffused energies, eq. (29) integrated (`rediffused_energy_CDF`). -/
noncomputable def redCDF (q e0 e : ℝ) : ℝ := e ^ (q + 1) / e0 ^ (q + 1)

/-- Distribution function of true secondary energies (`_true_sec_energy_CDF`). -/
noncomputable def trueCDF (eps p e0 e : ℝ) : ℝ := gammaP p (e / eps) / gammaP p (e0 / eps)

/-- The Poisson law of parameter `lam`. -/
noncomputable def poissonP (lam : ℝ) (n : ℕ) : ℝ := exp (-lam) * lam ^ n / (n.factorial : ℝ)

/-- The mean of `f` over `n` independent Poisson numbers of parameter `lam`. -/
noncomputable def poissonMean (lam : ℝ) : ℕ → (List ℕ → ℝ) → ℝ
  | 0, f => f []
  | n + 1, f => ∑' d : ℕ, poissonP lam d * poissonMean lam n (fun l => f (d :: l))

/-- The probability that a Poisson number of parameter `lam` is at least `m`. -/
noncomputable def poissonTail (lam : ℝ) (m : ℕ) : ℝ := ∑' n : ℕ, poissonP lam (n + m)

/-- The mean number of electrons emitted by one impact with yields `de`, `dr`, `dts`: average over the uniform draw of the
event and the (at most 13) Poisson numbers. -/
noncomputable def fpMeanNumber (excl : Bool) (mCut : ℕ) (de dr dts : ℝ) : ℝ :=
  ∫ u in (0 : ℝ)..1, poissonMean (deltaPrime excl de dr dts) 13 (fun l =>
    match fpNumber excl mCut de dr u l with
    | .ok n => (n : ℝ)
    | .error _ => 0)

end PyECLOUD
