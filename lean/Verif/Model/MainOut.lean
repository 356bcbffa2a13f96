import Verif.Model.Timing

/-!
# The main output file during a run

`witness` of pyecloud_saver.py with respect to the main output file and the stop file. A record is whatever the saver appends in
one step; the file holds the records present when it was written (`build_outp_dict` collects all members of the saver).
-/

namespace PyECLOUD

/-- Records in memory and content of the main output file (`none`: there is no file). -/
structure OutSt (α : Type) where
  recs : List α
  file : Option (List α)
  deriving DecidableEq

variable {K : Type} [Field K] [LinearOrder K] [FloorRing K] {α : Type}

/-- The check of `save_mat_every` (init.py:230-231). -/
def checkMatEvery (nPass every : ℤ) : Except PyErr Unit :=
  if every = 0 then .error .zeroDivision
  else if nPass % every ≠ 0 then .error .valueError
  else .ok ()

/-- One call of `witness` (pyecloud_saver.py:256-322): the record is appended, and the file written at the start of every
`save_mat_every`-th passage (pyecloud_saver.py:296-311). -/
def saveMain (every : ℤ) (b : BeamSt K) (r : α) (s : OutSt α) : OutSt α :=
  { recs := s.recs ++ [r]
    file := if b.newPass && decide ((b.pass.getD 0 + 1) % every = 0) then some (s.recs ++ [r]) else s.file }

/-- A run with output (init.py:230-231, buildup_simulation.py:141-160): the records are the times of the steps. -/
def outRun (g : BeamGrid K) (every : ℤ) : Except PyErr (OutSt (Option K)) :=
  match checkMatEvery (nPassTot g.t g.bSpac) every with
  | .error e => .error e
  | .ok _ =>
    match runLoop g (fun b s => .ok (saveMain every b b.tt s)) none (g.t.length + 1) BeamSt.init ⟨[], none⟩ with
    | .error e => .error e
    | .ok r => .ok r.2

/-- `_save_output_data` over the clouds (buildup_simulation.py:429-455), with the test for the stop file at the end of `witness`
(pyecloud_saver.py:319-320, 1137-1143): `stop k` says whether the file is there when cloud `k` looks. The second result says
whether the simulation is stopped. -/
def outClouds (every : ℤ) (b : BeamSt K) (stop : ℕ → Bool) : ℕ → List (OutSt α × α) → List (OutSt α) × Bool
  | _, [] => ([], false)
  | k, (s, r) :: l =>
    if b.newPass && stop k then (saveMain every b r s :: l.map Prod.fst, true)
    else (saveMain every b r s :: (outClouds every b stop (k + 1) l).1, (outClouds every b stop (k + 1) l).2)

/-- Consecutive steps of a run until it is stopped: beam state, presence of the stop file, records of the clouds. The first result
counts the steps made. -/
def outSteps (every : ℤ) : List (BeamSt K × (ℕ → Bool) × List α) → List (OutSt α) → ℕ × List (OutSt α) × Bool
  | [], s => (0, s, false)
  | e :: l, s =>
    let q := outClouds every e.1 e.2.1 0 (s.zip e.2.2)
    if q.2 then (1, q.1, true)
    else
      let r := outSteps every l q.1
      (r.1 + 1, r.2)

end PyECLOUD
