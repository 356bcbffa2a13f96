import Verif.Model.SimStep

/-! # One cloud of a simulation, alone -/

namespace PyECLOUD

variable {K : Type} [Field K] [LinearOrder K]

/-- The settings of a simulation of cloud `i` alone, which is then cloud 0. -/
def SimCfg.solo (S : SimCfg K) (i : ℕ) : SimCfg K :=
  { S with imp := fun _ => S.imp i, full := fun _ => S.full i, regen := fun _ => S.regen i, gas := fun _ => S.gas i,
           photo := fun _ => S.photo i }

/-- A time step for cloud `i` alone: the same beams and fields, the motion, emission and random numbers of cloud `i`. -/
def StepIn.solo (inp : StepIn K) (i : ℕ) : StepIn K :=
  { inp with motion := fun _ => inp.motion i, sey := fun _ => inp.sey i, gasD := fun _ => inp.gasD i, phU := fun _ => inp.phU i,
             phVel := fun _ => inp.phVel i, phEnds := fun _ => inp.phEnds i, sgVel := fun _ => inp.sgVel i,
             sgSeg := fun _ => inp.sgSeg i, sgR0 := fun _ => inp.sgR0 i, sgRounds := fun _ => inp.sgRounds i,
             fullD := fun _ => inp.fullD i, randSoft := fun _ => inp.randSoft i, randAsync := fun _ => inp.randAsync i }

/-- A simulation that consists of cloud `cl` with the impact manager of cloud `i`, without cross ionisation. -/
def SimSt.solo (st : SimSt K) (i : ℕ) (cl : XCloud K) : SimSt K := ⟨[cl], fun _ => st.hists i, fun _ => st.cnt i, none⟩

end PyECLOUD
