import Verif.Model.LogFile

/-! # Specification: what log and progress files should hold -/

namespace PyECLOUD

/-- the elements up to the first one with `p`, that one included -/
def upToFirst {α : Type} (p : α → Bool) : List α → List α
  | [] => []
  | a :: l => if p a then [a] else a :: upToFirst p l

/-- all passages of a run with the clouds in their order: number of the passage, cloud, and what the cloud brings -/
def passages {K : Type} (cs : List LogCfg) (steps : List (BeamSt K × List (LogIn K))) : List (ℤ × LogCfg × LogIn K) :=
  (steps.filter (fun s => s.1.newPass)).flatMap (fun s => (cs.zip s.2).map (fun ci => (s.1.pass.getD 0, ci.1, ci.2)))

/-- the lines that the passages `ps` leave in the log file `q`: one for every passage of every cloud that logs there and can -/
def logLines {K : Type} (q : String) (tot : ℤ) (ps : List (ℤ × LogCfg × LogIn K)) : List (LogLine K) :=
  (ps.filter (fun c => decide (c.2.1.logfile = some q) && c.2.2.okLog)).map (fun c => .pass c.1 tot c.2.1.cloud c.2.2.nel c.2.2.nmp)

/-- the passages that are written to the progress file `q` -/
def progPasses {K : Type} (q : String) (ps : List (ℤ × LogCfg × LogIn K)) : List ℤ :=
  (ps.filter (fun c => decide (c.2.1.progress = some q) && c.2.2.okProg)).map (fun c => c.1)

end PyECLOUD
