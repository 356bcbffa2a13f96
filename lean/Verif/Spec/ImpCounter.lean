import Verif.Model.SimStep

/-!
# Specification vocabulary: macroparticles hitting the wall in a time step
-/

namespace PyECLOUD

variable {K : Type} [Field K] [LinearOrder K] [FloorRing K]

/-- Number of macroparticles of cloud `i` that are outside the chamber after their motion in the step. -/
def wallHits (S : SimCfg K) (inp : StepIn K) (st : SimSt K) (i : ℕ) : ℕ :=
  match st.clouds[i]? with
  | none => 0
  | some c => (c.mps.push (inp.motion i)).live.countP (fun p => S.ch.outside (p .x) (p .y))

/-- Number of photoelectrons from photon directions that cloud `i` gets in the step. -/
def photonHits (S : SimCfg K) (inp : StepIn K) (st : SimSt K) (i : ℕ) : ℕ :=
  match S.photo i, st.clouds[i]? with
  | .rays kc mean, some c =>
    (photoCount kc mean (inp.main.lam + (inp.secs.map (fun b => b.lam)).sum) inp.dt c.mps.ref (inp.phU i)).toNat
  | _, _ => 0

/-- The values of a counter at the passages: it starts from `n` and is increased by `inc` in each step. -/
def atPassages (n : ℕ) : List (Bool × ℕ) → List ℕ
  | [] => []
  | (newPass, inc) :: l => if newPass then (n + inc) :: atPassages (n + inc) l else atPassages (n + inc) l

end PyECLOUD
