import Verif.Model.SaverSteps
import Verif.Spec.Cloud

/-!
# Specification vocabulary: decimated output

A run of the saver divides the time steps into groups. A group is closed by a step that comes at least `dt` after the
previous record; that step is the last one of its group and makes the record.
-/

namespace PyECLOUD

variable {K : Type} [Field K] [LinearOrder K]

/-- One closed group: the earlier steps, and the step that makes the record. -/
abbrev Group (K : Type) := List (WitIn K) × WitIn K

/-- All steps of a group. -/
def Group.steps (g : Group K) : List (WitIn K) := g.1 ++ [g.2]

/-- The groups and the still open group follow the rule, `tp` being the time of the previous record. -/
def Grouped (dt : K) : K → List (Group K) → List (WitIn K) → Prop
  | tp, [], opn => ∀ i ∈ opn, i.tt - tp < dt
  | tp, g :: gs, opn => (∀ i ∈ g.1, i.tt - tp < dt) ∧ dt ≤ g.2.tt - tp ∧ Grouped dt g.2.tt gs opn

/-- What a record of a group contains: the sums over the group of the impact and emission counters, everything else
as it is at the recording step. -/
def Group.record (c : SbsCfg K) (g : Group K) : SCh → K
  | .t => g.2.tt
  | .lam => g.2.lam
  | .nelTimep => (g.2.cloud.head .nel).sum
  | .nelImp => (g.steps.map (fun i => i.cnt.nelImp)).sum
  | .nelEmit => (g.steps.map (fun i => i.cnt.nelEmit)).sum
  | .enImp => (g.steps.map (fun i => i.cnt.enImp)).sum
  | .enEmit => (g.steps.map (fun i => i.cnt.enEmit)).sum
  | .enKin => g.2.cloud.kinetic c.ke
  | .cen => g.2.cloud.nelWithin 0 0 c.rCenter / (c.pi * c.rCenter * c.rCenter)
  | .nMp => (g.2.cloud.nmp : K)
  | .ref => g.2.cloud.ref
  | .crossNel => g.2.cross.1
  | .crossNmp => g.2.cross.2.1
  | .crossDn => g.2.cross.2.2
  | .enElec => g.2.elec
  | .custom k => g.2.custom k

/-- The series a user finds in the output with given settings. -/
def SbsCfg.Recorded (c : SbsCfg K) : SCh → Prop
  | .nMp | .ref => c.detailed = true
  | .crossNel | .crossNmp | .crossDn => c.cross = true
  | .enElec => c.elec = true
  | .custom k => k < c.nCustom
  | _ => True

end PyECLOUD
