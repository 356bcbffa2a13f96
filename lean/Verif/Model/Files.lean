import Verif.Model.Config

/-!
# Names of the output files

Strings are lists of characters. A path is the string handed to the file functions; `pathKey` is what it denotes (`./x`, `.//x` and `x` are the
same file).
-/

namespace PyECLOUD

/-- `s.split(sep)` for a separator that is not empty: pieces between the occurrences found from the left, which do not overlap. `k`
characters of the separator found last are still to be skipped, `cur` is the current piece reversed. -/
def splitGo (sep : List Char) : ℕ → List Char → List Char → List (List Char)
  | _, cur, [] => [cur.reverse]
  | k + 1, cur, _ :: l => splitGo sep k cur l
  | 0, cur, c :: l =>
    if sep.isPrefixOf (c :: l) then cur.reverse :: splitGo sep (sep.length - 1) [] l
    else splitGo sep 0 (c :: cur) l

/-- `s.split(sep)[0]` -/
def splitFst (sep s : List Char) : List Char := (splitGo sep 0 [] s).headD []

/-- `s.split(sep)[-1]` -/
def splitLst (sep s : List Char) : List Char := (splitGo sep 0 [] s).getLastD []

/-- `'%d' % n` for a natural number. -/
def fmtD (n : ℕ) : List Char := Nat.toDigits 10 n

/-- `int(s)` of a string of decimal digits; every other string is refused (Python also accepts signs, blanks around the digits
and underscores between them, which do not occur here). -/
def pyInt (s : List Char) : Except PyErr ℕ :=
  if s ≠ [] ∧ ∀ c ∈ s, c.isDigit = true then .ok (Nat.ofDigitChars 10 s 0) else .error .valueError

/-- Output of one interaction of an e-cloud in PyHEADTAIL: the name given in the configuration and the number of the
interaction (PyEC4PyHT.py:738-743). -/
def iterName (outp : List Char) (i : ℕ) : List Char :=
  splitFst "__iter".toList (splitFst ".mat".toList outp) ++ "__iter".toList ++ fmtD i ++ ".mat".toList

/-- Output after `load_state` (buildup_simulation.py:508-513): `name` the argument `filen_main_outp`, `outp` the name of the saver. -/
def restartName (name outp : List Char) : List Char :=
  splitFst ".mat".toList outp ++ splitLst "Pyecltest".toList name ++ ".mat".toList

/-- File of checkpoint `i` (pyecloud_saver.py:533). -/
def checkpointName (i : ℕ) : List Char := "simulation_checkpoint_".toList ++ fmtD i ++ ".pkl".toList

/-- Number of a checkpoint read from its file name (buildup_simulation.py:535). -/
def checkpointNumber (file : List Char) : Except PyErr ℕ := pyInt (splitLst "_".toList (splitFst ".pkl".toList file))

/-- Name of the file of an extracted cross section (cross_ionization.py:109-110). -/
def extractedName (path : List Char) : List Char := splitFst ".mat".toList path ++ "_extracted.mat".toList

/-- `'/'.join(l)` -/
def joinSlash : List (List Char) → List Char
  | [] => []
  | [a] => a
  | a :: l => a ++ '/' :: joinSlash l

/-- `folder_outp` of the saver (pyecloud_saver.py:154-159). -/
def folderOutp (outp : List Char) : List Char :=
  if '/' ∈ outp then joinSlash (splitGo ['/'] 0 [] outp).dropLast else "./".toList

/-- `fname_only_main_outp` (pyecloud_saver.py:154-159). -/
def fnameOnly (outp : List Char) : List Char :=
  if '/' ∈ outp then splitLst ['/'] outp else outp

/-- Path of the output when a run is resumed (pyecloud_saver.py:584-587, default folder). -/
def resumePath (outp : List Char) : List Char := folderOutp outp ++ ['/'] ++ fnameOnly outp

/-- The kinds of movies: charge of all clouds, charge of one cloud, field. -/
inductive Movie where
  | rho
  | cloud (name : List Char)
  | field
  deriving DecidableEq

/-- Directory looked for (pyecloud_saver.py:1039,1059,1090). -/
def Movie.sought (folder : List Char) : Movie → List Char
  | .rho => folder ++ "/rho_video".toList
  | .cloud n => folder ++ "/rho_video_".toList ++ n
  | .field => folder ++ "/efield_video".toList

/-- Directory made if the one above is not there (pyecloud_saver.py:1040,1060,1091). -/
def Movie.made (folder : List Char) : Movie → List Char
  | .rho => folder ++ "/rho_video".toList
  | .cloud n => folder ++ "rho_video_".toList ++ n
  | .field => folder ++ "/efield_video".toList

/-- File of passage `i` (pyecloud_saver.py:1050,1073,1104). -/
def Movie.file (folder : List Char) (i : ℕ) : Movie → List Char
  | .rho => folder ++ "/rho_video/rho_pass".toList ++ fmtD i ++ ".mat".toList
  | .cloud n => folder ++ "rho_video_".toList ++ n ++ "/rho_pass".toList ++ fmtD i ++ ".mat".toList
  | .field => folder ++ "/efield_video/efield_pass".toList ++ fmtD i ++ ".mat".toList

/-- a component that counts -/
def keepComp (c : List Char) : Bool := decide (c ≠ [] ∧ c ≠ ['.'])

/-- What a path denotes: whether it is absolute, and its components without empty ones and `.` (the file system's reading of a
path; `..` and links are not resolved). -/
def pathKey (s : List Char) : Bool × List (List Char) :=
  (s.head? == some '/', (splitGo ['/'] 0 [] s).filter keepComp)

/-- One call at a time step as far as directories are concerned; `dirs` are the existing ones, and `os.makedirs` refuses
to make one of them (FileExistsError, here `custom`). -/
def Movie.dirStep (folder : List Char) (v : Movie) (dirs : List (Bool × List (List Char))) :
    Except PyErr (List (Bool × List (List Char))) :=
  if pathKey (v.sought folder) ∈ dirs then .ok dirs
  else if pathKey (v.made folder) ∈ dirs then .error .custom
  else .ok (pathKey (v.made folder) :: dirs)

/-- `n` time steps -/
def Movie.dirSteps (folder : List Char) (v : Movie) : ℕ → List (Bool × List (List Char)) →
    Except PyErr (List (Bool × List (List Char)))
  | 0, dirs => .ok dirs
  | n + 1, dirs => do
    let d ← v.dirStep folder dirs
    Movie.dirSteps folder v n d

end PyECLOUD
