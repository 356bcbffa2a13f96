import Verif.Model.Sources
import Verif.Spec.EmitMean

/-! # Specification: a sequence of calls of the sources, the electrons they are asked for -/

namespace PyECLOUD

/-- A call of a source with all its arguments but the random number that rounds the number of macroparticles: gas ionisation,
photoemission with a search of the wall, photoemission per segment. -/
inductive PrimCall where
  | gas (outside : ℝ → ℝ → Bool) (unifFrac xAper yAper kIon v0 lam dt sx sy xb yb : ℝ) (d : GasDraws ℝ)
  | photo (ch : Chamber ℝ) (vel : ℕ → Hit ℝ → ℝ × ℝ × ℝ) (ends : ℕ → (ℝ × ℝ) × (ℝ × ℝ)) (kc : ℝ) (mean : Option ℝ) (lam dt : ℝ)
  | photoSeg (outside : ℝ → ℝ → Bool) (segs : List (PhSeg ℝ)) (cdf : List ℝ) (vel : ℕ → PhSeg ℝ → ℝ × ℝ × ℝ) (kc : ℝ)
      (mean : Option ℝ) (lam dt : ℝ) (seg r0 : ℕ → ℝ) (rounds : List (ℕ → ℝ))

/-- The call with the rounding number `u`. -/
noncomputable def PrimCall.run : PrimCall → ℝ → MPs ℝ → Except PyErr (MPs ℝ)
  | .gas o f xa ya k v0 lam dt sx sy xb yb d, u => gasGenerate o f xa ya k v0 lam dt sx sy xb yb { d with u := u }
  | .photo ch vel ends kc mean lam dt, u => photoGenerate ch vel ends kc mean lam dt u
  | .photoSeg o segs cdf vel kc mean lam dt seg r0 rounds, u => photoSegGenerate o segs cdf vel kc mean lam dt u seg r0 rounds

/-- The electrons asked for: rate times line density (its average over the turn for continuous emission) times time step. -/
noncomputable def PrimCall.asked : PrimCall → ℝ
  | .gas _ _ _ _ kIon _ lam dt _ _ _ _ _ => kIon * lam * dt
  | .photo _ _ _ kc mean lam dt => kc * (mean.getD lam) * dt
  | .photoSeg _ _ _ _ kc mean lam dt _ _ _ => kc * (mean.getD lam) * dt

/-- The calls one after the other, the `k`-th with the rounding number `u k`. -/
noncomputable def primRun : List PrimCall → (ℕ → ℝ) → MPs ℝ → Except PyErr (MPs ℝ)
  | [], _, s => .ok s
  | c :: l, u, s => match c.run (u 0) s with
    | .error e => .error e
    | .ok s1 => primRun l (fun k => u (k + 1)) s1

end PyECLOUD
