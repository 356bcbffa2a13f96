import Verif.Model.Checkpoint

/-!
# Specification vocabulary: crashes and restarts
-/

namespace PyECLOUD

variable {K S M : Type} [Field K] [LinearOrder K]

/-- The last checkpoint whose writing was completed, after operations `l`. -/
def lastDone (last : Option (ℕ × S)) : List (FOp S M) → Option (ℕ × S)
  | [] => last
  | .ckEnd i s :: l => lastDone (some (i, s)) l
  | _ :: l => lastDone last l

/-- The disks that can be found after any number of runs, each started on the disk left by the previous one and dying
at an arbitrary point of its file operations, together with the last checkpoint completed so far. -/
inductive Reach (c : CkCfg K) (time : S → K) : Disk S M → Option (ℕ × S) → Prop
  | fresh : Reach c time ⟨[], none, none⟩ none
  | life (d : Disk S M) (last : Option (ℕ × S)) (r : Option (ℕ × S × M)) (evs : List (PassEv K S M)) (pre : List (FOp S M))
      (d' : Disk S M) : Reach c time d last → startup c.copyFolder d = .ok r → pre <+: lifeOps c (resume time r) evs →
      d.applyAll pre = .ok d' → Reach c time d' (lastDone last pre)

/-- Passages divided at the checkpoints: in each group, the last passage is the first one at least `dt` after the previous
checkpoint (time `t0` at the beginning); the passages in `opn` come after the last checkpoint. -/
def Paced (dt : K) : K → List (List (PassEv K S M) × PassEv K S M) → List (PassEv K S M) → Prop
  | t0, [], opn => ∀ e ∈ opn, e.tt < t0 + dt
  | t0, g :: gs, opn => (∀ e ∈ g.1, e.tt < t0 + dt) ∧ t0 + dt ≤ g.2.tt ∧ Paced dt g.2.tt gs opn

/-- The checkpoints written by a sequence of operations. -/
def written (l : List (FOp S M)) : List (ℕ × S) :=
  l.filterMap (fun o => match o with
    | .ckEnd i s => some (i, s)
    | _ => none)

/-- The main output file after the passages `evs`: it is written at the passages whose number plus one is a multiple of
`save_mat_every`, and left as it was at the others. -/
def mainAfter (every : ℤ) (m0 : Option (Option M)) (evs : List (PassEv K S M)) : Option (Option M) :=
  evs.foldl (fun m e => if every ∣ e.passNumb + 1 then some (some e.out) else m) m0

/-- How often a sequence of operations completes a copy of the main output. -/
def copies (l : List (FOp S M)) : ℕ :=
  l.countP (fun o => match o with
    | .cpEnd => true
    | _ => false)

end PyECLOUD
