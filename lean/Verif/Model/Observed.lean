import Verif.Model.SimStep
import Verif.Model.SaverHist

/-!
# The simulation loop with the saver: `sim_time_step` with `_save_output_data` (buildup_simulation.py:162-225, 429-455)

`Model/SimStep` leaves the saver out. Here the operations of a time step are cut where the output is saved, that is, after the
cross ionisation and the field solution and before cleaning and regeneration. Of the saver the part that touches the
simulation is run (`HistSav.witness`: histograms are copied to the output and reset, pyecloud_saver.py:256-322); the other
parts of `witness` only read (C50 - C52, C73, C77, C78) and are left out. The field solution does not change the
macroparticles and is left out, as in `Model/SimStep`.
-/

namespace PyECLOUD

variable {K : Type} [Field K] [LinearOrder K]

/-- The histograms of an impact manager that the saver moves to the output. `segE k` is the energy spectrum of segment `k`
(impact_management_class.py:139-171). -/
inductive HKey where
  | tot
  | scrub
  | energ
  | cos
  | enLine
  | life
  | segNel
  | segEmit
  | segEn
  | segE (k : ℕ)
  deriving DecidableEq

/-- The current histogram of the impact manager. -/
def ImpHist.key (h : ImpHist K) : HKey → List K
  | .tot => h.tot
  | .scrub => h.scrub
  | .energ => h.energ
  | .cos => h.cos
  | .enLine => h.enLine
  | .life => h.life
  | .segNel => h.segNel
  | .segEmit => h.segEmit
  | .segEn => h.segEn
  | .segE k => h.segEnLines.getD k []

/-- The rows of the output made from it (pyecloud_saver.py:398-425, 1174-1209). -/
def HistSav.rows (v : HistSav K) : HKey → List (List K)
  | .tot => v.pass .tot
  | .scrub => v.pass .scrub
  | .energ => v.pass .energ
  | .cos => v.cos
  | .enLine => v.en
  | .life => v.life
  | .segNel => v.pass .segNel
  | .segEmit => v.pass .segEmit
  | .segEn => v.pass .segEn
  | .segE k => v.segEnLines.getD k []

/-- The simulation and the savers of its clouds. -/
structure ObservedSt (K : Type) where
  sim : SimSt K
  sav : ℕ → HistSav K

/-- The operations of `sim_time_step` before the saving (buildup_simulation.py:183-214). -/
def StepIn.moveOps (S : SimCfg K) (n : ℕ) (inp : StepIn K) : List (SimOp K) :=
  (List.range n).flatMap (fun i => SimOp.track i (inp.motion i) (inp.sey i) inp.tt :: inp.primaryOps S i) ++
  [SimOp.cross inp.dt inp.xD]

/-- The operations after it (buildup_simulation.py:224-225). -/
def StepIn.maintOps (n : ℕ) (inp : StepIn K) : List (SimOp K) :=
  (List.range n).map (fun i =>
    SimOp.maintain i inp.newPass inp.skipClean inp.skipRegen (inp.fullD i) (inp.randSoft i) (inp.randAsync i))

variable [FloorRing K]

/-- `witness` for one cloud (buildup_simulation.py:434-455); `hc i = none` is `pyeclsaver is None`. `w` holds the arguments of
`witness` that are not part of the state modelled here. -/
def saveOne (hc : ℕ → Option (HistCfg K)) (inp : StepIn K) (w : ℕ → WitIn K) (i : ℕ) (st : ObservedSt K) : Except PyErr (ObservedSt K) :=
  match hc i with
  | none => .ok st
  | some c =>
    match st.sim.clouds[i]? with
    | none => .error .indexError
    | some cl =>
      match HistSav.witness c (st.sav i) (st.sim.hists i)
        { w i with tt := inp.tt, newPass := inp.newPass, cnt := st.sim.cnt i, cloud := cl.mps } with
      | .error e => .error e
      | .ok r => .ok ⟨{ st.sim with hists := Function.update st.sim.hists i r.2 }, Function.update st.sav i r.1⟩

/-- The loop over the clouds in `_save_output_data` (buildup_simulation.py:429-455). -/
def saveAll (hc : ℕ → Option (HistCfg K)) (inp : StepIn K) (w : ℕ → WitIn K) : List ℕ → ObservedSt K → Except PyErr (ObservedSt K)
  | [], st => .ok st
  | i :: l, st =>
    match saveOne hc inp w i st with
    | .error e => .error e
    | .ok st' => saveAll hc inp w l st'

/-- `sim_time_step` (buildup_simulation.py:162-225). -/
def obsStep (S : SimCfg K) (hc : ℕ → Option (HistCfg K)) (inp : StepIn K) (w : ℕ → WitIn K) (st : ObservedSt K) :
    Except PyErr (ObservedSt K) :=
  match simRun S (inp.moveOps S st.sim.clouds.length) st.sim with
  | .error e => .error e
  | .ok s1 =>
    match saveAll hc inp w (List.range st.sim.clouds.length) ⟨s1, st.sav⟩ with
    | .error e => .error e
    | .ok s2 =>
      match simRun S (inp.maintOps st.sim.clouds.length) s2.sim with
      | .error e => .error e
      | .ok s3 => .ok ⟨s3, s2.sav⟩

/-- The loop over the time steps (buildup_simulation.py:131-160). -/
def obsRun (S : SimCfg K) (hc : ℕ → Option (HistCfg K)) : List (StepIn K × (ℕ → WitIn K)) → ObservedSt K → Except PyErr (ObservedSt K)
  | [], st => .ok st
  | e :: l, st =>
    match obsStep S hc e.1 e.2 st with
    | .error x => .error x
    | .ok st' => obsRun S hc l st'

end PyECLOUD
