import Mathlib.Data.List.Basic
import Mathlib.Data.List.Flatten
import Mathlib.Algebra.BigOperators.Group.List.Basic

/-!
# Model of the file helpers

myfilemanager.py. An h5 file is the value stored in it: absent, without the requested group, or a group of named data
sets. An array is its shape with its entries in row-major order.
-/

namespace PyECLOUD

/-- An h5 file as seen by the readers of monitor data. -/
inductive H5File (α : Type) where
  | missing
  | noGroup
  | group (d : List (String × α))

/-- Exceptions of the readers: `IOError` of the opening, `KeyError`, and `IndexError` for an empty list of names. -/
inductive H5Err where
  | io
  | key
  | index
deriving DecidableEq

/-- `monitorh5_to_dict` (myfilemanager.py:45-53). -/
def monLoad {α : Type} : H5File α → Except H5Err (List (String × α))
  | .missing => .error .io
  | .noGroup => .error .key
  | .group d => .ok d

/-- The loops of myfilemanager.py:65-70: every data set of the dictionary built so far is joined with the one of the
same name in the current file. -/
def monJoin {α : Type} (cat : α → α → α) (cur : List (String × α)) : List (String × α) →
    Except H5Err (List (String × α))
  | [] => .ok []
  | (k, a) :: md =>
    match cur.lookup k with
    | none => .error .key
    | some b => do
      let rest ← monJoin cat cur md
      .ok ((k, cat a b) :: rest)

/-- The loop over the remaining files (myfilemanager.py:61-75). `except IOError` sees only the opening of the file. -/
def monLoop {α : Type} (cat : α → α → α) (permissive : Bool) : List (H5File α) → List (String × α) →
    Except H5Err (List (String × α))
  | [], md => .ok md
  | f :: fs, md =>
    match monLoad f with
    | .error .io => if permissive then monLoop cat permissive fs md else .error .io
    | .error e => .error e
    | .ok cur => do
      let md' ← monJoin cat cur md
      monLoop cat permissive fs md'

/-- `monitorh5list_to_dict` (myfilemanager.py:59-77). -/
def monList {α : Type} (cat : α → α → α) (permissive : Bool) : List (H5File α) → Except H5Err (List (String × α))
  | [] => .error .index
  | f :: fs => do
    let md ← monLoad f
    monLoop cat permissive fs md

/-- Joining with `flag_transpose=False` (myfilemanager.py:69-70): `list` gives the entries along the first axis. -/
def catFirst {α : Type} (a b : List α) : List α := a ++ b

/-- `.T` of a two-dimensional array given by its rows, all of the same length. -/
def transposeRows {K : Type} (d : K) (m : List (List K)) : List (List K) :=
  (List.range ((m.headD []).length)).map (fun j => m.map (fun r => r.getD j d))

/-- Joining with `flag_transpose=True` (myfilemanager.py:66-67) for two-dimensional arrays with at least one column in
the result. -/
def catLast {K : Type} (d : K) (a b : List (List K)) : List (List K) :=
  transposeRows d (transposeRows d a ++ transposeRows d b)

/-- A numpy array: shape and entries in row-major order. The shape `[]` is that of a scalar. -/
structure NDArr (K : Type) where
  shape : List ℕ
  data : List K
deriving DecidableEq

/-- What `scipy.io.savemat` followed by `loadmat` does to an array: matrices have at least two dimensions, a scalar
becomes one by one and a vector a single row. -/
def viaMat {K : Type} (a : NDArr K) : NDArr K :=
  match a.shape with
  | [] => ⟨[1, 1], a.data⟩
  | [n] => ⟨[1, n], a.data⟩
  | s => ⟨s, a.data⟩

/-- `np.squeeze`. -/
def npSqueeze {K : Type} (a : NDArr K) : NDArr K := ⟨a.shape.filter (· ≠ 1), a.data⟩

/-- `myloadmat` (myfilemanager.py:17-26) of a dictionary written with `scipy.io.savemat`. -/
def viaMyloadmat {K : Type} (squeeze : Bool) (d : List (String × NDArr K)) : List (String × NDArr K) :=
  d.map (fun p => (p.1, if squeeze then npSqueeze (viaMat p.2) else viaMat p.2))

/-- A Python value in a dictionary: a scalar or an array. -/
inductive PyVal (K : Type) where
  | scalar (x : K)
  | arr (a : NDArr K)
deriving DecidableEq

/-- A data set of an h5 file written by `create_dataset` (myfilemanager.py:83-88): scalars are arrays of shape `()`. -/
def toDataset {K : Type} : PyVal K → NDArr K
  | .scalar x => ⟨[], [x]⟩
  | .arr a => a

/-- `dict_of_arrays_and_scalar_from_h5` (myfilemanager.py:31-39) for one data set: arrays of shape `()` become
scalars. -/
def fromDataset {K : Type} (d : K) (a : NDArr K) : PyVal K :=
  if a.shape = [] then .scalar (a.data.headD d) else .arr a

/-- A dictionary written with `dict_to_h5` and read with `dict_of_arrays_and_scalar_from_h5`. The keys are distinct
and the order in which they are read is not modelled. -/
def viaH5 {K : Type} (d : K) (v : List (String × PyVal K)) : List (String × PyVal K) :=
  v.map (fun p => (p.1, fromDataset d (toDataset p.2)))

end PyECLOUD
