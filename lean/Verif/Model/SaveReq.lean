import Verif.Model.Clocks

/-!
# Model of how requests for state files, checkpoints and copies are read

`_MP_state_init`, `_sim_state_init`, `_checkpoint_init`, `_copy_main_outp_init` of pyecloud_saver.py.
-/

namespace PyECLOUD

variable {K : Type} [Field K] [LinearOrder K]

/-- A value of `save_mp_state_time_file`, `save_simulation_state_time_file`, `checkpoint_DT` or `copy_main_outp_DT`: `None`, an
integer, a float, a list (or array) of times, the name (not empty) of a file whose entry `t_obs` is a matrix with the given rows.
A file that cannot be read is an exception and not modelled. -/
inductive ReqVal (K : Type) where
  | none
  | int (n : ℤ)
  | float (x : K)
  | list (l : List K)
  | file (rows : List (List K))

/-- What `np.squeeze` makes of a matrix: a number, a vector, or a matrix with that many rows. -/
inductive Squeezed (K : Type) where
  | scalar (x : K)
  | vec (l : List K)
  | mat (n : ℕ)

/-- `np.squeeze` of a matrix given by its rows, all of the same length (pyecloud_saver.py:911, 945). -/
def squeeze (rows : List (List K)) : Squeezed K :=
  match rows with
  | [[x]] => .scalar x
  | [r] => .vec r
  | _ => if rows.all (fun r => r.length == 1) && !rows.isEmpty then .vec rows.flatten else .mat rows.length

/-- How a saver is set: nothing to do, the times, or `n` rows that are not times (the first comparison with the time raises
an exception if `n > 0`). -/
inductive ReqSet (K : Type) where
  | off
  | times (l : List K)
  | rows (n : ℕ)
  deriving DecidableEq

/-- `_MP_state_init` (pyecloud_saver.py:904-918): a `TypeError` anywhere in the block means that nothing is saved: indexing
`None` or a number, and `len` of a number. -/
def mpRequest : ReqVal K → Except PyErr (ReqSet K)
  | .none => .ok .off
  | .int _ => .ok .off
  | .float _ => .ok .off
  | .list [] => .error .indexError
  | .list l => .ok (.times l)
  | .file rows =>
    match squeeze rows with
    | .scalar _ => .ok .off
    | .vec l => .ok (.times l)
    | .mat n => .ok (.rows n)

/-- `_sim_state_init` (pyecloud_saver.py:936-951): `len` of a number is not caught. -/
def simRequest : ReqVal K → Except PyErr (ReqSet K)
  | .none => .ok .off
  | .int n => if n = -1 then .ok .off else .error .typeError
  | .float _ => .error .typeError
  | .list l => .ok (.times l)
  | .file rows =>
    match squeeze rows with
    | .scalar _ => .error .typeError
    | .vec l => .ok (.times l)
    | .mat n => .ok (.rows n)

/-- `_checkpoint_init` (pyecloud_saver.py:510-525): the interval, if checkpoints are saved; `folder` says whether a folder is given.
For a list or a name the exception comes with the first comparison (531), not here. -/
def ckRequest (v : ReqVal K) (folder : Bool) : Except PyErr (Option K) :=
  match v with
  | .none => .ok none
  | .int n => if n = -1 then .ok none else if folder then .ok (some (n : K)) else .error .valueError
  | .float x => if folder then .ok (some x) else .error .valueError
  | _ => .error .typeError

/-- `_copy_main_outp_init` (pyecloud_saver.py:553-569), in the same way. -/
def copyRequest (v : ReqVal K) (folder : Bool) : Except PyErr (Option K) :=
  match v with
  | .none => .ok none
  | .int n => if n < 0 then .ok none else if folder then .ok (some (n : K)) else .error .valueError
  | .float x => if folder then .ok (some x) else .error .valueError
  | _ => .error .typeError

end PyECLOUD
