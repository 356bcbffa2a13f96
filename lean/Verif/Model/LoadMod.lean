import Mathlib.Logic.Function.Basic
import Mathlib.Data.List.Basic

/-!
# Loading input files through a temporary directory (input_parameters_format_specification.py:118-156)

`import_module_from_file` copies the input file to a directory `/tmp/PyECLOUD_<pid>`, puts a line in front of it, lets Python run
the copy and removes the directory. The operations on the file system are the steps of a task; tasks of any processes interleave.
-/

namespace PyECLOUD

/-- Exceptions of the loading: missing file or directory, directory that exists, and what the input file itself raises. -/
inductive LoadErr where
  | notFound
  | exists
  | script
  deriving DecidableEq, Repr

/-- The part of the file system that the loading writes: which of the directories `/tmp/PyECLOUD_<pid>` exist, and the texts of the
files in them, by name (input_parameters_format_specification.py:125). -/
structure TmpFs where
  dirs : ℕ → Bool
  files : ℕ → String → Option String

/-- Where a call of `import_module_from_file` is (input_parameters_format_specification.py:127-156): before the test for the directory
(:127), before `mkdir` (:128), `shutil.copy` (:132), reading (:135-136), writing (:137-139) and execution (:141-152) of the copy,
before `rmtree` (:154) with the outcome so far, returned. -/
inductive LoadPc (M : Type) where
  | test
  | mkdir
  | copy
  | read
  | write (text : String)
  | exec
  | clean (r : Except LoadErr M)
  | done (r : Except LoadErr M)

/-- A call: the process it is made in, the name of the temporary copy (module name and time, :131), the path of the input file. -/
structure LoadTask (M : Type) where
  pid : ℕ
  tag : String
  src : String
  pc : LoadPc M

/-- What is put in front of every input file (input_parameters_format_specification.py:137). -/
def piHeader : String := "from numpy import pi\n\n"

/-- `open(name, 'w')` or the writing end of `shutil.copy` for a file in the directory of a process; fails without the directory. -/
def TmpFs.put (fs : TmpFs) (pid : ℕ) (tag text : String) : Option TmpFs :=
  if fs.dirs pid then some { fs with files := Function.update fs.files pid (Function.update (fs.files pid) tag (some text)) } else none

/-- Next operation of a call (input_parameters_format_specification.py:118-156). `ext` are the input files and `py` what Python makes
of a text (a module, or the exception raised by the text). An exception in the `try` block leads to the `finally` block, one in
`mkdir` does not, and one in `rmtree` replaces the outcome. Simplified: `rmtree`, the copy and the writing are single operations; the
module name, which only labels the module, is left out; python 3 only. -/
def LoadTask.step {M : Type} (ext : String → Option String) (py : String → Except LoadErr M) (fs : TmpFs) (t : LoadTask M) :
    TmpFs × LoadTask M :=
  match t.pc with
  | .test => (fs, { t with pc := if fs.dirs t.pid then .copy else .mkdir })
  | .mkdir =>
    if fs.dirs t.pid then (fs, { t with pc := .done (.error .exists) })
    else ({ fs with dirs := Function.update fs.dirs t.pid true }, { t with pc := .copy })
  | .copy =>
    match ext t.src with
    | none => (fs, { t with pc := .clean (.error .notFound) })
    | some c =>
      match fs.put t.pid t.tag c with
      | none => (fs, { t with pc := .clean (.error .notFound) })
      | some fs' => (fs', { t with pc := .read })
  | .read =>
    match fs.files t.pid t.tag with
    | none => (fs, { t with pc := .clean (.error .notFound) })
    | some c => (fs, { t with pc := .write c })
  | .write c =>
    match fs.put t.pid t.tag (piHeader ++ c) with
    | none => (fs, { t with pc := .clean (.error .notFound) })
    | some fs' => (fs', { t with pc := .exec })
  | .exec =>
    match fs.files t.pid t.tag with
    | none => (fs, { t with pc := .clean (.error .notFound) })
    | some c => (fs, { t with pc := .clean (py c) })
  | .clean r =>
    if fs.dirs t.pid then
      (⟨Function.update fs.dirs t.pid false, Function.update fs.files t.pid (fun _ => none)⟩, { t with pc := .done r })
    else (fs, { t with pc := .done (.error .notFound) })
  | .done _ => (fs, t)

/-- Calls in progress, numbered, and the file system between them. -/
structure LoadSt (M : Type) where
  fs : TmpFs
  tasks : ℕ → LoadTask M

/-- Call number `i` makes its next operation. -/
def LoadSt.step {M : Type} (ext : String → Option String) (py : String → Except LoadErr M) (s : LoadSt M) (i : ℕ) : LoadSt M :=
  let r := (s.tasks i).step ext py s.fs
  ⟨r.1, Function.update s.tasks i r.2⟩

/-- Operations in the order of a schedule, which names for each the call that makes it. -/
def LoadSt.run {M : Type} (ext : String → Option String) (py : String → Except LoadErr M) (s : LoadSt M) (sched : List ℕ) : LoadSt M :=
  sched.foldl (fun s i => s.step ext py i) s

end PyECLOUD
