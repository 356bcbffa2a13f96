import Verif.Model.SaverSteps

/-!
# Model of the snapshots and movies of `pyecloud_saver` (904-1111)
-/

namespace PyECLOUD

variable {K : Type} [Field K] [LinearOrder K]

/-- A snapshot saver: index of the next requested time (`i_obs`, `i_obs_sim`), files written: number and contents. -/
structure ObsSt (C : Type) where
  i : ℕ
  files : List (ℕ × C)

/-- `_MP_state_save` (pyecloud_saver.py:920-934) and `_sim_state_save` (1013-1025): if the next requested time is reached and
`ready`, write one file and move to the next time. -/
def obsSave {C : Type} (tObs : List K) (st : ObsSt C) (ready : Bool) (tt : K) (contents : C) : ObsSt C :=
  match tObs[st.i]? with
  | none => st
  | some t => if ready && decide (tt ≥ t) then ⟨st.i + 1, st.files ++ [(st.i, contents)]⟩ else st

/-- Contents of a macroparticle snapshot (pyecloud_saver.py:930-931): time, number, and the seven arrays cut at `N_mp`. -/
structure MpSnap (K : Type) where
  tt : K
  nmp : ℕ
  arr : Fld → List K

/-- `_MP_state_save`: nothing is written for an empty cloud. -/
def mpStateSave (tObs : List K) (st : ObsSt (MpSnap K)) (i : WitIn K) : ObsSt (MpSnap K) :=
  obsSave tObs st (decide (0 < i.cloud.nmp)) i.tt ⟨i.tt, i.cloud.nmp, fun f => i.cloud.head f⟩

/-- `_sim_state_save` for the last cloud; `S` is the simulation state. -/
def simStateSave {S : Type} (tObs : List K) (st : ObsSt S) (i : WitIn K × S) : ObsSt S :=
  obsSave tObs st true i.1.tt i.2

/-- A movie being recorded: frames with their times since the last passage, files written: number, times, frames. -/
structure MovieSt (K F : Type) where
  t : List K
  frames : List F
  files : List (ℤ × List K × List F)

/-- `_rho_video_save` (pyecloud_saver.py:1036-1055; 1057-1078 for each cloud of several), `_sc_video_save` (1087-1111): a frame when the
space charge was recomputed, a file at every passage. -/
def movieSave {F : Type} (m : MovieSt K F) (i : WitIn K × F) : MovieSt K F :=
  let m1 := if i.1.recomp then { m with t := m.t ++ [i.1.tt], frames := m.frames ++ [i.2] } else m
  if i.1.newPass then ⟨[], [], m1.files ++ [((i.1.passNumb : ℤ) - 1, m1.t, m1.frames)]⟩ else m1

end PyECLOUD
