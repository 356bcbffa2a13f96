import Verif.Model.Np

/-!
# Model of the files written at a bunch passage and read back at start-up

`pyecloud_saver.py` (`witness`, 256-322; checkpoints, 510-547; copies of the main output, 549-574) and
`buildup_simulation.py` (113-129, 527-547). `S` stands for the pickled simulation state, `M` for the contents of the main
output file. Writing a file is two operations: opening it for writing (which truncates it), and completing it; a run that dies
in between leaves an incomplete file. Log and progress files are in Model/LogFile.
-/

namespace PyECLOUD

/-- Python exceptions raised by file operations. -/
inductive FsErr where
  /-- `ValueError`: more than one checkpoint -/
  | valueError
  /-- `FileNotFoundError` -/
  | notFound
  /-- a truncated pickle or mat file cannot be read (`EOFError`, `UnpicklingError`, ...) -/
  | corrupt
  deriving DecidableEq, Repr

/-- The files: checkpoints (number, contents or `none` if incomplete), main output, and copy of the main output
(`none`: no such file; `some none`: incomplete). -/
structure Disk (S M : Type) where
  ck : List (ℕ × Option S)
  mat : Option (Option M)
  cp : Option (Option M)
  deriving DecidableEq

/-- File operations. -/
inductive FOp (S M : Type) where
  | ckBegin (i : ℕ)
  | ckEnd (i : ℕ) (s : S)
  | ckRemove (i : ℕ)
  | matBegin
  | matEnd (m : M)
  | cpBegin
  | cpEnd

variable {K S M : Type}

/-- Create or overwrite a checkpoint file. -/
def ckPut (l : List (ℕ × Option S)) (i : ℕ) (v : Option S) : List (ℕ × Option S) :=
  l.filter (fun q => decide (q.1 ≠ i)) ++ [(i, v)]

/-- Effect of one operation: `open(.., 'wb')`, `pickle.dump` (pyecloud_saver.py:994-996), `os.remove` (543), `sio.savemat` (311),
`shutil.copy` (550). -/
def Disk.apply (d : Disk S M) : FOp S M → Except FsErr (Disk S M)
  | .ckBegin i => .ok { d with ck := ckPut d.ck i none }
  | .ckEnd i s => .ok { d with ck := ckPut d.ck i (some s) }
  | .ckRemove i => if d.ck.any (fun q => decide (q.1 = i)) then .ok { d with ck := d.ck.filter (fun q => decide (q.1 ≠ i)) }
      else .error .notFound
  | .matBegin => .ok { d with mat := some none }
  | .matEnd m => .ok { d with mat := some (some m) }
  | .cpBegin => match d.mat with
    | none => .error .notFound
    | some _ => .ok { d with cp := some none }
  | .cpEnd => .ok { d with cp := d.mat }

/-- Consecutive operations. -/
def Disk.applyAll (d : Disk S M) : List (FOp S M) → Except FsErr (Disk S M)
  | [] => .ok d
  | o :: l => match d.apply o with
    | .ok d' => Disk.applyAll d' l
    | .error x => .error x

/-- Settings: `checkpoint_DT`, `flag_last_cloud`, whether `copy_main_outp_folder` is given, `copy_main_outp_DT`,
`save_mat_every` (at least one). -/
structure CkCfg (K : Type) where
  dt : Option K
  lastCloud : Bool
  copyFolder : Bool
  copyDt : Option K
  matEvery : ℤ

/-- `i_checkp`, `t_last_checkp`, `t_last_copy`. -/
structure CkSt (K : Type) where
  i : ℕ
  tLast : K
  tCopy : K

/-- A bunch passage: time, passage number, simulation state and output at that time. -/
structure PassEv (K S M : Type) where
  tt : K
  passNumb : ℤ
  st : S
  out : M

variable [Field K] [LinearOrder K]

/-- `_checkpoint_init` and `_copy_main_outp_init` (pyecloud_saver.py:519-520, 561). -/
def CkSt.init : CkSt K := ⟨0, 0, 0⟩

/-- Copy of the main output (pyecloud_saver.py:549-551). -/
def copyOps : List (FOp S M) := [.cpBegin, .cpEnd]

/-- `_checkpoint_save` (pyecloud_saver.py:527-547). For a cloud that is not the last, `_sim_state_single_save` writes nothing
(pyecloud_saver.py:956). -/
def ckOps (c : CkCfg K) (st : CkSt K) (e : PassEv K S M) : List (FOp S M) × CkSt K :=
  match c.dt with
  | none => ([], st)
  | some dt =>
    if e.tt - st.tLast ≥ dt then
      ((if c.lastCloud then [.ckBegin st.i, .ckEnd st.i e.st] else []) ++
        (if c.copyFolder then copyOps else []) ++
        (if 0 < st.i ∧ c.lastCloud = true then [.ckRemove (st.i - 1)] else []),
       ⟨st.i + 1, e.tt, if c.copyFolder then e.tt else st.tCopy⟩)
    else ([], st)

/-- `_copy_main_outp_save` (pyecloud_saver.py:571-574). -/
def copySaveOps (c : CkCfg K) (st : CkSt K) (e : PassEv K S M) : List (FOp S M) × CkSt K :=
  match c.copyDt with
  | none => ([], st)
  | some dt => if e.tt - st.tCopy ≥ dt then (copyOps, { st with tCopy := e.tt }) else ([], st)

/-- The main output file (pyecloud_saver.py:310-311). -/
def matOps (c : CkCfg K) (e : PassEv K S M) : List (FOp S M) :=
  if (e.passNumb + 1) % c.matEvery = 0 then [.matBegin, .matEnd e.out] else []

/-- The file operations of one passage, in order (pyecloud_saver.py:296-317). -/
def passOps (c : CkCfg K) (st : CkSt K) (e : PassEv K S M) : List (FOp S M) × CkSt K :=
  (matOps c e ++ (ckOps c st e).1 ++ (copySaveOps c (ckOps c st e).2 e).1, (copySaveOps c (ckOps c st e).2 e).2)

/-- The file operations of a whole run. -/
def lifeOps (c : CkCfg K) : CkSt K → List (PassEv K S M) → List (FOp S M)
  | _, [] => []
  | st, e :: l => (passOps c st e).1 ++ lifeOps c (passOps c st e).2 l

/-- Start-up (buildup_simulation.py:113-129, 527-547, pyecloud_saver.py:581-588): with exactly one checkpoint it is loaded, with the
output from the copy folder if there is one, else from the output folder; with none a new simulation starts. -/
def startup (copyFolder : Bool) (d : Disk S M) : Except FsErr (Option (ℕ × S × M)) :=
  match d.ck with
  | [] => .ok none
  | [(i, some s)] => match if copyFolder then d.cp else d.mat with
    | none => .error .notFound
    | some none => .error .corrupt
    | some (some m) => .ok (some (i, s, m))
  | [(_, none)] => .error .corrupt
  | _ => .error .valueError

/-- The saver after start-up (buildup_simulation.py:544-546). `time` is the time of a saved state. -/
def resume (time : S → K) : Option (ℕ × S × M) → CkSt K
  | none => CkSt.init
  | some (i, s, _) => ⟨i + 1, time s, 0⟩

/-- A time step (buildup_simulation.py:163-225): everything up to saving the output, then cleaning and regeneration. The
checkpoint is written at the end of `body`. -/
def simStep {E X : Type} (body : E → X → Except PyErr X) (maint : E → X → Except PyErr X) (s : X) (e : E) : Except PyErr X := do
  let s1 ← body e s
  maint e s1

/-- The run that goes on. -/
def runOn {E X : Type} (body maint : E → X → Except PyErr X) (s : X) (e : E) (rest : List E) : Except PyErr X :=
  (e :: rest).foldlM (simStep body maint) s

/-- The run restarted from the checkpoint written during the step `e` (buildup_simulation.py:131-160, 476-547). -/
def runRestarted {E X : Type} (body maint : E → X → Except PyErr X) (s : X) (e : E) (rest : List E) : Except PyErr X := do
  let saved ← body e s
  rest.foldlM (simStep body maint) saved

end PyECLOUD
