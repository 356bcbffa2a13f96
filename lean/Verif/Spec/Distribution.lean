import Verif.Spec.Cloud
import Verif.Spec.Motion
import Verif.Spec.Impact
import Verif.Model.Coupled

/-!
# Specification vocabulary: the charge distribution of a cloud

Macroparticles stand for a distribution of charge over places, velocities and times of the last impact. How many there are, in
which order, and how a charge is divided among macroparticles at the same place is bookkeeping.
-/

namespace PyECLOUD

variable {K : Type} [Field K] [LinearOrder K]

/-- The sum over macroparticles of their charge times a quantity `q` of position and velocity and of the time of the last impact. -/
def weigh (q : Phase K → K → K) (l : List (Particle K)) : K := (l.map (fun p => p .nel * q p.phase (p .tl))).sum

/-- Two lists of macroparticles with the same distribution of charge: every charge-weighted sum agrees. -/
def SameCharge (l l' : List (Particle K)) : Prop := ∀ q, weigh q l = weigh q l'

/-- position and velocity of an emitted macroparticle -/
def Emit.phase (e : Emit K) : Phase K := ⟨e.x, e.y, e.z, e.vx, e.vy, e.vz⟩

/-- the impact of a unit charge -/
def Impact.unit (i : Impact K) : Impact K := { i with nel := 1 }

/-- An emission model in which what an impact emits does not depend on the other impacts and is proportional to the impacting charge:
at each threshold for splitting there is a response of the surface to a unit charge. -/
def SeyByImpact (sey : K → List (Impact K) → Except PyErr (SeyOut K)) : Prop :=
  ∀ th, ∃ (resp : (Phase K → ℤ → K) → Impact K → K) (yld : Impact K → K), ∀ imps out, sey th imps = .ok out →
    out.replace.length = imps.length ∧
    (∀ q, ((out.replace ++ out.new).map (fun e => e.nel * q e.phase e.seg)).sum = (imps.map (fun i => i.nel * resp q i.unit)).sum) ∧
    out.nelEmit.sum = (imps.map (fun i => i.nel * yld i.unit)).sum

/-- The fields at macroparticle `k`. -/
def Fields.at (f : Fields K) (k : ℕ) : K × K × K × K × K :=
  (f.ex.getD k 0, f.ey.getD k 0, f.bx.getD k 0, f.yb.getD k 0, f.bz.getD k 0)

/-- A tracker that moves every macroparticle according to the fields at its place and nothing else. -/
structure TrackerObj.Local (tr : TrackerObj K) : Prop where
  step : ∃ g : K × K × K × K × K → Phase K → Phase K, ∀ s f s', tr.step s f = .ok s' → s' = s.push (fun k p => g (f.at k) p)
  custom : ∀ d n, ∃ g : K × K × K × K × K → Phase K → Phase K, ∀ s f s', tr.stepCustom s f d n = .ok s' →
    s' = s.push (fun k p => g (f.at k) p)

/-- A field solver whose density depends only on the distribution of the charge over the transverse plane. -/
def PicFun.ByCharge {G : Type} (p : PicFun K G) : Prop :=
  ∀ q l l', (∀ w : K → K → K, (l.map (fun a => a.2.2 * w a.1 a.2.1)).sum = (l'.map (fun a => a.2.2 * w a.1 a.2.1)).sum) →
    p.scatter q l = p.scatter q l'

/-- Two clouds with the same charge distribution, reference size, threshold for splitting and kind of histories. -/
structure SameCloud (c c' : XCloud K) : Prop where
  wf : c.mps.WF
  wf' : c'.mps.WF
  charge : SameCharge c.mps.live c'.mps.live
  ref : c.mps.ref = c'.mps.ref
  split : c.mps.split = c'.mps.split
  life : c.mps.lifetime = c'.mps.lifetime

/-- Two states of a simulation with the same charge distributions, histograms, counters, densities and fields. -/
structure SameState {G : Type} (st st' : CplSt K G) : Prop where
  clouds : List.Forall₂ SameCloud st.sim.clouds st'.sim.clouds
  hists : st.sim.hists = st'.sim.hists
  cnt : st.sim.cnt = st'.sim.cnt
  cross : st.sim.cross = none
  cross' : st'.sim.cross = none
  rho : st.rho = st'.rho
  tLast : st.tLast = st'.tLast

/-- Some room is left in the arrays of every cloud. -/
def SimSt.Roomy (st : SimSt K) : Prop := ∀ c ∈ st.clouds, c.mps.nmp < c.mps.cap

/-- A step at whose end no cloud is cleaned or regenerated: not the beginning of a passage, or a passage with cleaning and regeneration
skipped. -/
def CplIn.Quiet (inp : CplIn K) : Prop := inp.step.newPass = false ∨ inp.step.skipClean = true ∧ inp.step.skipRegen = true

end PyECLOUD
