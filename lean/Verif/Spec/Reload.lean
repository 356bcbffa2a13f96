import Verif.Model.Reload
import Verif.Spec.Cloud

/-!
# What is meant by "cleaning and regenerations have nothing to do"
-/

namespace PyECLOUD

variable {K : Type} [Field K] [LinearOrder K] [FloorRing K]

/-- The cloud is not empty, none of its macroparticles is below the cleaning threshold, and their number is in the range in
which no regeneration is made. -/
structure NothingToDo (full : FullCfg K) (cfg : RegenCfg) (m : MPs K) : Prop where
  some : 0 < m.nmp
  large : ∀ p ∈ m.live, m.clTh ≤ p .nel
  notMany : m.nmp ≤ full.nRegen
  notFew : full.nRegenLow ≤ m.nmp ∨ m.ref ≤ m.ref0
  soft : ∀ (thr target : ℕ), cfg.soft = .some (thr, target) → m.nmp ≤ thr
  async : ∀ (thr target : ℕ), cfg.async = .some (thr, target) → m.nmp ≤ thr

end PyECLOUD
