import Verif.Spec.Solo
import Verif.Model.Coupled

/-! # The simulation with its fields: notions for the statements -/

namespace PyECLOUD

variable {K G : Type} [Field K] [LinearOrder K]

/-- The settings as far as they concern cloud `i` (which is then cloud 0). -/
def CplCfg.solo (C : CplCfg K G) (i : ℕ) : CplCfg K G :=
  { C with S := C.S.solo i, charge := fun _ => C.charge i, qm := fun _ => C.qm i, tr := fun _ => C.tr i }

/-- The arguments of a time step as far as they concern cloud `i`. -/
def CplIn.solo (inp : CplIn K) (i : ℕ) : CplIn K :=
  { inp with step := { inp.step.solo i with motion := fun _ _ p => p } }

/-- Cloud `i` of `st` is cloud `σ i` of `st'`, with its impact histogram and counters. -/
def SimSt.Rearranged (σ : ℕ → ℕ) (st st' : SimSt K) : Prop :=
  st'.clouds.length = st.clouds.length ∧
  ∀ i < st.clouds.length, st'.clouds[σ i]? = st.clouds[i]? ∧ st'.hists (σ i) = st.hists i ∧ st'.cnt (σ i) = st.cnt i

/-- A tracker writes only the positions and velocities of the live macroparticles. -/
structure TrackerObj.Pushes (tr : TrackerObj K) : Prop where
  step : ∀ s f s', tr.step s f = .ok s' → ∃ g, s' = s.push g
  custom : ∀ s f d n s', tr.stepCustom s f d n = .ok s' → ∃ g, s' = s.push g

end PyECLOUD
