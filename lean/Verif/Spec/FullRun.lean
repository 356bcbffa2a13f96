import Verif.Spec.SimStep
import Verif.Model.Observed

/-! # What the step-by-step samples of a run are taken from -/

namespace PyECLOUD

variable {K : Type} [Field K] [LinearOrder K] [FloorRing K]

/-- Cloud `i` of a simulation without any saver, at the times when the output is saved (after motion, impacts, sources and cross
ionisation, before cleaning): time, counters of the impacts, macroparticles. -/
def simTrace (S : SimCfg K) (i : ℕ) : List (StepIn K) → SimSt K → List (K × ImpCount K × MPs K)
  | [], _ => []
  | inp :: l, st =>
    match simRun S (inp.moveOps S st.clouds.length) st with
    | .error _ => []
    | .ok s1 =>
      match s1.clouds[i]? with
      | none => []
      | some c =>
        (inp.tt, s1.cnt i, c.mps) ::
          match simRun S (inp.maintOps st.clouds.length) s1 with
          | .error _ => []
          | .ok s2 => simTrace S i l s2

/-- The counters of the cross ionisation for the products named `nm`: charge, macroparticles, ionised projectiles. -/
def SimSt.crossOf (st : SimSt K) (nm : ℕ) : K × K × K :=
  match st.cross with
  | none => (0, 0, 0)
  | some x => (x.nelC nm, x.nmpC nm, x.dnC nm)

/-- Charge that the gas ionisation and the photoemission bring to cloud `i` along a run: per call the rounded number of
primaries in units of the reference size. -/
def simPrimaries (S : SimCfg K) (i : ℕ) : List (SimOp K) → SimSt K → K
  | [], _ => 0
  | op :: ops, st =>
    match op.apply S st with
    | .error _ => 0
    | .ok st' =>
      (match op with
        | .gas _ _ _ _ _ _ _ _ => op.gain S i st st'
        | .rays _ _ _ _ _ _ => op.gain S i st st'
        | .segs _ _ _ _ _ _ _ _ => op.gain S i st st'
        | _ => 0) + simPrimaries S i ops st'

/-- Charge in the macroparticles of cloud `i` that the cleaning removes along a run. -/
def simCleaned (S : SimCfg K) (i : ℕ) : List (SimOp K) → SimSt K → K
  | [], _ => 0
  | op :: ops, st =>
    match op.apply S st with
    | .error _ => 0
    | .ok st' =>
      (match op with
        | .maintain j newPass skipClean _ _ _ _ => if j = i ∧ newPass = true ∧ skipClean = false then st.small i else 0
        | _ => 0) + simCleaned S i ops st'

end PyECLOUD
