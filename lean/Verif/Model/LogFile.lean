import Verif.Model.Timing

/-!
# Log files, progress files and the stop file

`pyecloud_saver.py` (`__init__`, 73-105; end of `start_observing`, 248-254; `_logfile_progressfile_stofile`, 1113-1143) and the order in
which the savers are made (init.py:160-164, 290-305, 440-470). A line of the log is kept without its date. Whether a file can be
opened is an input.
-/

namespace PyECLOUD

/-- A line of a log file: the four lines of a new file (98-102), the end of the initialisation (253), a passage (1117). -/
inductive LogLine (K : Type) where
  | version
  | gitHash
  | gitBranch
  | started
  | initDone
  | pass (n tot : ℤ) (cloud : String) (nel : K) (nmp : ℕ)
  deriving DecidableEq

/-- Log files and progress files by path (`none`: there is no such file). -/
structure LogFs (K : Type) where
  log : String → Option (List (LogLine K))
  prog : String → Option K

/-- What a saver knows: `logfile_path`, `progress_path`, `cloud_name` (pyecloud_saver.py:209-210). -/
structure LogCfg where
  logfile : Option String
  progress : Option String
  cloud : String

/-- `open(p, 'w')` and writing `ls` -/
def LogFs.putLog {K : Type} (fs : LogFs K) (p : String) (ls : List (LogLine K)) : LogFs K :=
  { fs with log := Function.update fs.log p (some ls) }

/-- `open(p, 'a')` and writing one line; the file is made if there is none -/
def LogFs.addLog {K : Type} (fs : LogFs K) (p : String) (l : LogLine K) : LogFs K :=
  fs.putLog p ((fs.log p).getD [] ++ [l])

/-- `pyecloud_saver.__init__` (pyecloud_saver.py:97-102). `none`: the `IOError` of `open` is raised. -/
def logInit {K : Type} (c : LogCfg) (ok : Bool) (fs : LogFs K) : Option (LogFs K) :=
  match c.logfile with
  | none => some fs
  | some p => if ok then some (fs.putLog p [.version, .gitHash, .gitBranch, .started]) else none

/-- end of `start_observing` (pyecloud_saver.py:250-254) -/
def logStart {K : Type} (c : LogCfg) (ok : Bool) (fs : LogFs K) : Option (LogFs K) :=
  match c.logfile with
  | none => some fs
  | some p => if ok then some (fs.addLog p .initDone) else none

/-- The savers of all clouds: the one of the first cloud is made first (init.py:162), the others when their cloud is (init.py:298-302);
each starts observing at the end of its cloud (init.py:453-480), before the next cloud. With every cloud come the outcomes of its two
`open`s. -/
def logSetup {K : Type} : List (LogCfg × Bool × Bool) → LogFs K → Option (LogFs K)
  | [], fs => some fs
  | (c, ok, ok') :: l, fs => (logInit c ok fs).bind (fun fs => (logStart c ok' fs).bind (logSetup l))

/-- What one cloud brings to a passage: its electrons and macroparticles (pyecloud_saver.py:1117), whether log and progress file can be
opened, and whether there is a stop file. -/
structure LogIn (K : Type) where
  nel : K
  nmp : ℕ
  okLog : Bool
  okProg : Bool
  stop : Bool

variable {K : Type} [Field K]

/-- log and progress file of `_logfile_progressfile_stofile` (pyecloud_saver.py:1117-1135); an `IOError` is printed and passed over.
The number in the progress file is not rounded to six digits. -/
def passLog (c : LogCfg) (n tot : ℤ) (i : LogIn K) (fs : LogFs K) : LogFs K :=
  let fs := match c.logfile with
    | none => fs
    | some p => if i.okLog then fs.addLog p (.pass n tot c.cloud i.nel i.nmp) else fs
  match c.progress with
  | none => fs
  | some p => if i.okProg then { fs with prog := Function.update fs.prog p (some ((n : K) / (tot : K))) } else fs

/-- The calls for all clouds in one step (buildup_simulation.py:429-451, pyecloud_saver.py:319-320); with a stop file `ValueError` is
raised after the files of that cloud are written (pyecloud_saver.py:1137-1143), and the clouds after it are not reached. The `Bool`
says whether it was raised. -/
def logClouds (n tot : ℤ) : List (LogCfg × LogIn K) → LogFs K → LogFs K × Bool
  | [], fs => (fs, false)
  | (c, i) :: l, fs => if i.stop then (passLog c n tot i fs, true) else logClouds n tot l (passLog c n tot i fs)

/-- One step of the simulation (pyecloud_saver.py:319-320). -/
def logStep (cs : List LogCfg) (tot : ℤ) (b : BeamSt K) (ins : List (LogIn K)) (fs : LogFs K) : LogFs K × Bool :=
  if b.newPass then logClouds (b.pass.getD 0) tot (cs.zip ins) fs else (fs, false)

/-- The steps of a run, up to the one in which it is stopped (buildup_simulation.py:141-160). -/
def logRun (cs : List LogCfg) (tot : ℤ) : List (BeamSt K × List (LogIn K)) → LogFs K → LogFs K × Bool
  | [], fs => (fs, false)
  | (b, ins) :: l, fs =>
    let r := logStep cs tot b ins fs
    if r.2 then r else logRun cs tot l r.1

end PyECLOUD
