import Verif.Spec.SimStep

/-!
# Specification vocabulary for the growth of a cloud (C166)
-/

namespace PyECLOUD

variable {K : Type} [Field K] [LinearOrder K]

/-- The surface emits at most `M` electrons per impacting electron: whenever all impacts are of non-negative size and of
kind `P`, the macroparticles left behind carry together at most `M` times the impacting charge. -/
def YieldAtMost (P : Impact K → Prop) (M : K) (sey : K → List (Impact K) → Except PyErr (SeyOut K)) : Prop :=
  ∀ th imps out, sey th imps = .ok out → (∀ i ∈ imps, 0 ≤ i.nel ∧ P i) →
    (out.replace.map (fun e => e.nel)).sum + (out.new.map (fun e => e.nel)).sum ≤ M * (imps.map (fun i => i.nel)).sum

/-- An impact of physical energy and angle. -/
def Impact.Physical (i : Impact K) : Prop := 0 ≤ i.en ∧ 0 ≤ i.cth ∧ i.cth ≤ 1

/-- All impacts that the chamber and the impact manager of cloud `i` can produce are of kind `P`. -/
def SimCfg.Hits (S : SimCfg K) (i : ℕ) (P : Impact K → Prop) : Prop :=
  ∀ o q b, S.ch.hit o q = .ok b → ∀ p : Particle K, P (mkImpact S.sq (S.imp i).ke p b)

/-- The sources of electrons of cloud `i` are switched off. -/
def SimCfg.NoSources (S : SimCfg K) (i : ℕ) : Prop := (S.gas i).on = false ∧ S.photo i = .off

variable [FloorRing K]

/-- The charge an operation brings into cloud `i` from outside: gas ionisation, photoemission, cross ionisation. -/
def SimOp.source (S : SimCfg K) (i : ℕ) (a b : SimSt K) : SimOp K → K
  | .track _ _ _ _ => 0
  | .maintain _ _ _ _ _ _ _ => 0
  | op => op.gain S i a b

/-- Sum over a run of the charge brought into cloud `i` from outside. -/
def simSources (S : SimCfg K) (i : ℕ) : List (SimOp K) → SimSt K → K
  | [], _ => 0
  | op :: ops, st =>
    match op.apply S st with
    | .error _ => 0
    | .ok st' => op.source S i st st' + simSources S i ops st'

/-- No full regeneration of cloud `i` is due in this operation. -/
def SimOp.NotRebuilt (S : SimCfg K) (i : ℕ) (st : SimSt K) : SimOp K → Prop
  | .maintain j newPass skipClean _ _ _ _ => j = i → ∀ c, st.clouds[i]? = some c →
      (S.full i).trigger (if newPass && !skipClean then c.mps.clean else c.mps) = false
  | _ => True

/-- In the whole run no full regeneration of cloud `i` is due. The soft and asynchronous ones may be. -/
def RunNotRebuilt (S : SimCfg K) (i : ℕ) (ops : List (SimOp K)) (st : SimSt K) : Prop :=
  ∀ pre op post, ops = pre ++ op :: post → ∀ st1, simRun S pre st = .ok st1 → op.NotRebuilt S i st1

end PyECLOUD
