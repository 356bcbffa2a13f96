import Verif.Model.Regen

/-!
# Histories of operations on an `MP_system`, and the maintenance step of the simulation loop
-/

namespace PyECLOUD

variable {K : Type} [Field K] [LinearOrder K] [FloorRing K]

/-- `_MP_cleaning_and_regenerations` for one cloud (buildup_simulation.py:457-474). -/
def MPs.maintenance (s : MPs K) (newPass skipClean skipRegen : Bool) (full : FullCfg K) (cfg : RegenCfg)
    (fuel : ℕ) (d : FullDraws K) (randSoft randAsync : ℕ → K) : Except PyErr (MPs K) :=
  let s1 := if newPass && !skipClean then s.clean else s
  let r : Except PyErr (MPs K) :=
    if newPass && !skipRegen then
      match s1.checkRegen full fuel d with
      | .error e => .error e
      | .ok s2 => .ok (s2.checkSoft cfg randSoft)
    else .ok s1
  match r with
  | .error e => .error e
  | .ok s3 => .ok (s3.checkAsync cfg randAsync)

/-- The public operations that change an `MP_system`. `mutate` stands for the in-place updates of the
live part done by the trackers and by the impact manager (`MP_e.x_mp[0:MP_e.N_mp] = ...`,
e.g. dynamics_dipole.py, impact_management_class.py:313-319); `resetRef` for
`set_nel_mp_ref(nel_mp_ref_0)` (PyEC4PyHT.py:699). -/
inductive MPOp (K : Type) where
  | clean
  | soft (target : ℕ) (rand : ℕ → K)
  | checkSoft (cfg : RegenCfg) (rand : ℕ → K)
  | checkAsync (cfg : RegenCfg) (rand : ℕ → K)
  | regen (c : FullCfg K) (fuel : ℕ) (d : FullDraws K)
  | addNew (n : ℕ) (src : Fld → Src K)
  | addUniform (outside : K → K → Bool) (r : Rect K) (v0 dNel : K) (d : UniDraws K)
  | addDensity (outside : K → K → Bool) (r : Rect K) (v0 nEle : K) (d : UniDraws K)
  | addDict (d : MPDict K)
  | initDict (d : MPDict K)
  | resetRef
  | mutate (vals : Fld → ℕ → K)

/-- In-place update of the live entries of the arrays. -/
def MPs.mutate (s : MPs K) (vals : Fld → ℕ → K) : MPs K :=
  { s with arr := fun f => ((s.arr f).take s.nmp).mapIdx (fun i _ => vals f i) ++ (s.arr f).drop s.nmp }

/-- One operation. -/
def MPs.step (s : MPs K) : MPOp K → Except PyErr (MPs K)
  | .clean => .ok s.clean
  | .soft t r => .ok (s.softRegen t r)
  | .checkSoft c r => .ok (s.checkSoft c r)
  | .checkAsync c r => .ok (s.checkAsync c r)
  | .regen c fuel d => s.checkRegen c fuel d
  | .addNew n src => s.addNew n src
  | .addUniform o r v q d => s.addUniform o r v q d
  | .addDensity o r v q d => s.addDensity o r v q d
  | .addDict d => s.addDict d
  | .initDict d => s.initDict d
  | .resetRef => .ok (s.setRef s.ref0)
  | .mutate v => .ok (s.mutate v)

/-- A history of operations; it stops at the first exception. -/
def MPs.runOps (s : MPs K) : List (MPOp K) → Except PyErr (MPs K)
  | [] => .ok s
  | op :: ops =>
    match s.step op with
    | .error e => .error e
    | .ok s' => s'.runOps ops

end PyECLOUD
