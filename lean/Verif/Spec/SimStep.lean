import Verif.Model.SimStep
import Verif.Spec.Cloud
import Verif.Spec.Impact
import Verif.Spec.History
import Verif.Spec.Rounding

/-!
# Specification vocabulary for whole simulations
-/

namespace PyECLOUD

variable {K : Type} [Field K] [LinearOrder K]

/-- A cloud in good order: arrays of one length that hold the live macroparticles, every live macroparticle inside the
chamber and of non-negative size, thresholds locked to a reference size that is positive and never below its initial
value. -/
structure CloudOk (ch : Chamber K) (m : MPs K) : Prop where
  wf : m.WF
  cap : 0 < m.cap
  inside : ∀ p ∈ m.live, ch.outside (p .x) (p .y) = false
  nel : ∀ p ∈ m.live, 0 ≤ p .nel
  ref0 : 0 < m.ref0
  ref : m.ref0 ≤ m.ref
  split : m.split = m.factSplit * m.ref
  clTh : m.clTh = m.factClean * m.ref

/-- Settings of a meaningful simulation: the origin is inside, impact points are inside (C48, C49), the grid of the full
regeneration belongs to the chamber and covers it (MP_system.py:112-118), at least two cells per axis. -/
structure SimCfg.Ok (S : SimCfg K) : Prop where
  origin : S.ch.outside 0 0 = false
  hit : ∀ o q b, S.ch.outside o.1 o.2.1 = false → S.ch.outside q.1 q.2.1 = true → S.ch.hit o q = .ok b →
    S.ch.outside b.x b.y = false
  sqrt : ∀ a, 0 ≤ S.sq a
  out : ∀ i, (S.full i).outside = S.ch.outside
  dx : ∀ i, 0 < (S.full i).histDx
  n : ∀ i, 0 < (S.full i).histN
  sym : ∀ i, (S.full i).histBias = -((((S.full i).histN : K) - 1) / 2 * (S.full i).histDx)
  cut0 : ∀ i, 0 ≤ (S.full i).histCut
  cut1 : ∀ i, (S.full i).histCut ≤ 1
  nx : ∀ i, 2 ≤ (S.full i).nx
  ny : ∀ i, 2 ≤ (S.full i).ny
  nvx : ∀ i, 2 ≤ (S.full i).nvx
  nvy : ∀ i, 2 ≤ (S.full i).nvy
  nvz : ∀ i, 2 ≤ (S.full i).nvz
  ya : ∀ i, 0 < (S.full i).yAper
  cover : ∀ i x y, S.ch.outside x y = false → |x| ≤ -(S.full i).histBias

/-- An emission model that respects C18 and emits no negative sizes from non-negative ones. -/
def SeyGood (sey : K → List (Impact K) → Except PyErr (SeyOut K)) : Prop :=
  ∀ th imps out, sey th imps = .ok out → SeyOk imps out ∧
    ((∀ i ∈ imps, 0 ≤ i.nel) → (∀ e ∈ out.replace, 0 ≤ e.nel) ∧ ∀ e ∈ out.new, 0 ≤ e.nel)

/-- Photons start inside and end outside. -/
def RaysOk (ch : Chamber K) (ends : ℕ → (K × K) × (K × K)) : Prop :=
  ∀ k, ch.outside (ends k).1.1 (ends k).1.2 = false ∧ ch.outside (ends k).2.1 (ends k).2.2 = true

/-- Mean number of photoelectrons of a cloud per line density and time, non-negative. -/
def PhotoOk (c : PhotoCfg K) (lam dt : K) : Prop :=
  match c with
  | .off => True
  | .rays kc mean => 0 ≤ kc * (mean.getD lam) * dt
  | .segs kc mean _ _ => 0 ≤ kc * (mean.getD lam) * dt

/-- Admissible inputs of one time step: physical (non-negative) rates, random numbers of the unit interval, good
emission models; cleaning is not skipped while regenerations are allowed. The motion is arbitrary. -/
structure StepIn.Ok (S : SimCfg K) (inp : StepIn K) : Prop where
  dt : 0 ≤ inp.dt
  skip : inp.skipClean = true → inp.skipRegen = true
  sey : ∀ i, SeyGood (inp.sey i)
  gas : ∀ i, ∀ b ∈ inp.main :: inp.secs, 0 ≤ (S.gas i).kIon * b.lam * b.dt
  gasD : ∀ i k, 0 ≤ (inp.gasD i k).u ∧ InUnit (inp.gasD i k).rvx ∧ InUnit (inp.gasD i k).rvy ∧ InUnit (inp.gasD i k).rvz
  photo : ∀ i, PhotoOk (S.photo i) (inp.main.lam + (inp.secs.map (fun b => b.lam)).sum) inp.dt
  phU : ∀ i, 0 ≤ inp.phU i
  phEnds : ∀ i, RaysOk S.ch (inp.phEnds i)
  fullD : ∀ i k, ((inp.fullD i).pass k).Unit

/-- The cloud an operation works on; cross ionisation works on all of them. -/
def SimOp.cloud : SimOp K → Option ℕ
  | .track i _ _ _ => some i
  | .gas i _ _ _ _ _ _ _ => some i
  | .rays i _ _ _ _ _ => some i
  | .segs i _ _ _ _ _ _ _ => some i
  | .cross _ _ => none
  | .maintain i _ _ _ _ _ _ => some i

/-- The three stages of a time step: motion and primary electrons (0), cross ionisation (1), cleaning and regeneration (2). -/
def SimOp.stage : SimOp K → ℕ
  | .cross _ _ => 1
  | .maintain _ _ _ _ _ _ _ => 2
  | _ => 0

/-- What has to happen to cloud `i` in a time step, in this order: motion with the impacts; while residual gas ionisation is
on and its end time not reached, the electrons ionised by each beam; photoelectrons for the line density of all beams
together; cleaning and regeneration. -/
def StepIn.duties (S : SimCfg K) (inp : StepIn K) (i : ℕ) : List (SimOp K) :=
  SimOp.track i (inp.motion i) (inp.sey i) inp.tt ::
  ((if (S.gas i).on = true ∧ inp.tt < (S.gas i).tIon then
      (inp.main :: inp.secs).mapIdx (fun k b => SimOp.gas i b.lam b.dt b.sx b.sy b.xb b.yb (inp.gasD i k)) else []) ++
   (match S.photo i with
    | .off => []
    | .rays _ _ => [SimOp.rays i ((inp.main :: inp.secs).map (fun b => b.lam)).sum inp.dt (inp.phU i) (inp.phVel i) (inp.phEnds i)]
    | .segs _ _ _ _ => [SimOp.segs i ((inp.main :: inp.secs).map (fun b => b.lam)).sum inp.dt (inp.phU i) (inp.sgVel i)
        (inp.sgSeg i) (inp.sgR0 i) (inp.sgRounds i)]) ++
   [SimOp.maintain i inp.newPass inp.skipClean inp.skipRegen (inp.fullD i) (inp.randSoft i) (inp.randAsync i)])

/-- No cloud has filled its arrays. -/
def SimSt.Room (st : SimSt K) : Prop := ∀ c ∈ st.clouds, c.mps.nmp < c.mps.cap

variable [FloorRing K]

/-- The targets of the cross ionisation have not been depleted below zero, cross sections are non-negative. -/
def SimSt.Targets (lg : K → K) (st : SimSt K) : Prop :=
  ∀ x, st.cross = some x → ∀ q ∈ x.projs, ∀ pr ∈ q.2,
    0 ≤ pr.dens ∧ ∀ e s, pr.table.getSigma lg e = .ok s → 0 ≤ s

/-- All operations of the time steps, on `n` clouds. -/
def simOps (S : SimCfg K) (n : ℕ) (steps : List (StepIn K)) : List (SimOp K) := steps.flatMap (fun inp => inp.ops S n)

/-- At every point of the run there is room in the arrays, and the targets are not over-depleted. -/
def RunHealthy (S : SimCfg K) (ops : List (SimOp K)) (st : SimSt K) : Prop :=
  ∀ pre, pre <+: ops → ∀ st1, simRun S pre st = .ok st1 → st1.Room ∧ st1.Targets S.lg

/-- Charge of cloud `i`. -/
def SimSt.charge (st : SimSt K) (i : ℕ) : K :=
  match st.clouds[i]? with
  | some c => totalCharge c.mps.live
  | none => 0

/-- Reference size of cloud `i`. -/
def SimSt.refSize (st : SimSt K) (i : ℕ) : K :=
  match st.clouds[i]? with
  | some c => c.mps.ref
  | none => 1

/-- Charge in macroparticles of cloud `i` below the cleaning threshold. -/
def SimSt.small (st : SimSt K) (i : ℕ) : K :=
  match st.clouds[i]? with
  | some c => totalCharge (c.mps.live.filter (fun p => decide (p .nel < c.mps.clTh)))
  | none => 0

/-- What an operation that led from `a` to `b` is expected to have added to the charge of cloud `i`: the charge emitted
minus the charge that hit the wall, the rounded number of primaries in units of the reference size, the charge counted
by the cross ionisation, minus the macroparticles below the cleaning threshold. -/
def SimOp.gain (S : SimCfg K) (i : ℕ) (a b : SimSt K) : SimOp K → K
  | .track j _ _ _ => if j = i then (b.cnt i).nelEmit - (b.cnt i).nelImp else 0
  | .gas j lam dt _ _ _ _ d =>
    if j = i then (roundedCount ((S.gas i).kIon * lam * dt / a.refSize i) d.u : K) * a.refSize i else 0
  | .rays j lam dt u _ _ =>
    if j = i then
      match S.photo i with
      | .rays kc mean => (roundedCount (kc * (mean.getD lam) * dt / a.refSize i) u : K) * a.refSize i
      | _ => 0
    else 0
  | .segs j lam dt u _ _ _ _ =>
    if j = i then
      match S.photo i with
      | .segs kc mean _ _ => (roundedCount (kc * (mean.getD lam) * dt / a.refSize i) u : K) * a.refSize i
      | _ => 0
    else 0
  | .cross _ _ =>
    match a.cross, b.cross, a.clouds[i]? with
    | some x, some x', some c => x'.nelC c.name - x.nelC c.name
    | _, _, _ => 0
  | .maintain j newPass skipClean _ _ _ _ => if j = i ∧ newPass = true ∧ skipClean = false then - a.small i else 0

/-- Sum of the expected contributions along a run. -/
def simGains (S : SimCfg K) (i : ℕ) : List (SimOp K) → SimSt K → K
  | [], _ => 0
  | op :: ops, st =>
    match op.apply S st with
    | .error _ => 0
    | .ok st' => op.gain S i st st' + simGains S i ops st'

/-- No regeneration is due in a maintenance of cloud `i`: neither the full one nor the soft ones. -/
def SimOp.Calm (S : SimCfg K) (st : SimSt K) : SimOp K → Prop
  | .maintain i newPass skipClean _ _ _ _ => ∀ c, st.clouds[i]? = some c →
      let m := if newPass && !skipClean then c.mps.clean else c.mps
      (S.full i).trigger m = false ∧ (∀ thr t, (S.regen i).soft = some (thr, t) → m.nmp ≤ thr) ∧
        (∀ thr t, (S.regen i).async = some (thr, t) → m.nmp ≤ thr)
  | _ => True

/-- At every maintenance of the run no regeneration is due. -/
def RunCalm (S : SimCfg K) (ops : List (SimOp K)) (st : SimSt K) : Prop :=
  ∀ pre op post, ops = pre ++ op :: post → ∀ st1, simRun S pre st = .ok st1 → op.Calm S st1

/-- Sum over the run of a quantity `g` of the impacts of cloud `i`, read from the counters after each tracking. -/
def simWall (S : SimCfg K) (i : ℕ) (g : ImpCount K → K) : List (SimOp K) → SimSt K → K
  | [], _ => 0
  | op :: ops, st =>
    match op.apply S st with
    | .error _ => 0
    | .ok st' =>
      (match op with
        | .track j _ _ _ => if j = i then g (st'.cnt i) else 0
        | _ => 0) + simWall S i g ops st'

end PyECLOUD
