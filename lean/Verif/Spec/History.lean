import Verif.Model.MPHistory
import Verif.Spec.Cloud

namespace PyECLOUD

variable {K : Type} [Field K] [LinearOrder K] [FloorRing K]

/-- What an appending operation needs so that the capacity is respected: its data have the announced
length, and it does not append exactly one macroparticle to completely full arrays (numpy then
broadcasts the length-one array into an empty slice without an error). -/
def MPOp.Fits (s : MPs K) : MPOp K → Prop
  | .addNew n src => (∃ l, src .x = .array l ∧ l.length = n) ∧ (n = 1 → s.nmp < s.cap)
  | .addDict d => (d.data .x).length = d.n ∧ (d.n = 1 → s.nmp < s.cap)
  | .initDict d => (d.data .x).length = d.n ∧ (d.n = 1 → 0 < s.cap)
  | .addUniform .. => s.nmp < s.cap
  | .addDensity .. => s.nmp < s.cap
  | .regen .. => 0 < s.cap
  | _ => True

/-- Every operation of the history meets `Fits` in the state in which it is executed. -/
def MPs.AllFit (s : MPs K) (ops : List (MPOp K)) : Prop :=
  ∀ pre op post, ops = pre ++ op :: post → ∀ s1, s.runOps pre = .ok s1 → op.Fits s1

end PyECLOUD

namespace PyECLOUD

variable {K : Type} [Field K] [LinearOrder K]

/-- A draw of `rand()` (a closed unit interval is allowed). -/
def InUnit (u : K) : Prop := 0 ≤ u ∧ u ≤ 1

/-- All draws of one pass of the regeneration loop are random numbers of the unit interval. -/
structure PassDraws.Unit (d : PassDraws K) : Prop where
  x0 : ∀ i, InUnit (d.x0 i)
  y0 : ∀ i, InUnit (d.y0 i)
  vx : ∀ i, InUnit (d.vx i)
  vy : ∀ i, InUnit (d.vy i)
  vz : ∀ i, InUnit (d.vz i)
  rx : ∀ r ∈ d.rounds, ∀ i, InUnit (r.1 i)
  ry : ∀ r ∈ d.rounds, ∀ i, InUnit (r.2 i)

/-- A macroparticle lies within half a cell of a cell centre in all five phase-space coordinates. -/
structure NearCentre (st ctr : Steps K) (p : Particle K) : Prop where
  x : |p .x - ctr.x| ≤ st.x / 2
  y : |p .y - ctr.y| ≤ st.y / 2
  vx : |p .vx - ctr.vx| ≤ st.vx / 2
  vy : |p .vy - ctr.vy| ≤ st.vy / 2
  vz : |p .vz - ctr.vz| ≤ st.vz / 2

end PyECLOUD

namespace PyECLOUD

variable {K : Type} [Field K] [LinearOrder K]

/-- The same cloud with every dead slot forced to size zero. -/
def MPs.dropDead (s : MPs K) : MPs K :=
  { s with arr := Function.update s.arr .nel (zeroTail (s.arr .nel) s.nmp) }

variable [FloorRing K]

/-- Reference version of the maintenance step: every regeneration is applied to a cloud whose dead slots
have been cleared first, so that only live macroparticles can contribute charge. -/
def MPs.maintenanceLive (s : MPs K) (newPass skipClean skipRegen : Bool) (full : FullCfg K) (cfg : RegenCfg)
    (fuel : ℕ) (d : FullDraws K) (randSoft randAsync : ℕ → K) : Except PyErr (MPs K) :=
  let s1 := if newPass && !skipClean then s.clean else s
  let r : Except PyErr (MPs K) :=
    if newPass && !skipRegen then
      match s1.dropDead.checkRegen full fuel d with
      | .error e => .error e
      | .ok s2 => .ok (match cfg.soft with
          | none => s2
          | some (thr, target) => if s2.nmp > thr then s2.dropDead.softRegen target randSoft else s2)
    else .ok s1
  match r with
  | .error e => .error e
  | .ok s3 => .ok (match cfg.async with
      | none => s3
      | some (thr, target) =>
        if s3.nmp > thr then
          if s3.clean.nmp > thr then s3.clean.dropDead.softRegen target randAsync else s3.clean
        else s3)

end PyECLOUD
