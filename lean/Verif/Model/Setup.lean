/-
Model of decisions taken while a simulation is set up from its input folder (init.py): where the data
files are looked for, which parameter files are read, which chamber is built and what it must provide,
and which space charge solver is built.
-/
import Verif.Model.Config

namespace PyECLOUD

/-! ### Data files -/

/-- A file name given relative to the input folder: `pyecl_input_folder + '/' + name` (init.py:192-193). -/
def inFolder (folder name : String) : String := folder ++ "/" ++ name

/-- The search for the chamber file (init.py:192-197), the surface file (init.py:377-382), the
photoemission chamber (init.py:437-442) and the cross section (cross_ionization.py:97-102): in the input
folder, there with `.mat`, as given.  `isFile` is `os.path.isfile`. -/
def resolveIn (isFile : String → Bool) (folder name : String) : String :=
  if isFile (inFolder folder name) then inFolder folder name
  else if isFile (inFolder folder name ++ ".mat") then inFolder folder name ++ ".mat"
  else name

/-- The longitudinal profile of the primary beam (init.py:207-215).  `none` is the value -1 of a beam
without profile file: the string operations raise and the bare `except` keeps the value. -/
def resolvePrim (isFile : String → Bool) (folder : String) : Option String → Option String
  | none => none
  | some n => some (resolveIn isFile folder n)

/-- The longitudinal profile of a secondary beam (init.py:240-249): the test with `.mat` is made on the
name of the *primary* beam's file (line 243).  A primary beam without file makes that test raise a
TypeError, which keeps the name as given. -/
def resolveSec (isFile : String → Bool) (folder : String) (prim : Option String) : Option String → Option String
  | none => none
  | some n =>
    if isFile (inFolder folder n) then some (inFolder folder n)
    else match prim with
      | none => some n
      | some p => if isFile (inFolder folder p ++ ".mat") then some (inFolder folder n ++ ".mat") else some n

/-- The file opened by `scipy.io.loadmat`: the name itself, or the name with `.mat` appended when it does
not end that way (library behaviour, taken as given). -/
def loadmatFile (isFile : String → Bool) (name : String) : Except PyErr String :=
  if isFile name then .ok name
  else if ".mat".toList <:+ name.toList then .error .custom
  else if isFile (name ++ ".mat") then .ok (name ++ ".mat")
  else .error .custom

/-- The file with the yield data (sec_emission_model_from_file.py:91-103): the candidates are the name
after `expanduser` and the name in the folder `sey_files` of the package; the name that is loaded in the
end is the one given (line 103), not the candidate found (line 100). -/
def seyLoad (isFile : String → Bool) (expand : String → String) (pkg name : String) : Except PyErr String :=
  match [expand name, pkg ++ "/sey_files/" ++ name].filter isFile with
  | [] => .error .valueError
  | _ :: _ => loadmatFile isFile name

/-- The yield data of a simulation (init.py:377-388 followed by the constructor above). -/
def seyFileUsed (isFile : String → Bool) (expand : String → String) (pkg folder name : String) : Except PyErr String :=
  seyLoad isFile expand pkg (resolveIn isFile folder name)

/-! ### Parameter files -/

/-- `read_parameter_files` followed by the keyword arguments (init.py:96-125, 133-143): the names of the
machine and surface files are taken from the simulation file before the keyword arguments are looked at.
`files` gives the contents of the file of the given name. -/
def initConfig {V : Type} (t : ParamTbl V) (files : V → Mod V) (sim : Mod V) (ignore : List String) (kw : Mod V) :
    Except CfgErr (Mod V) :=
  match attr sim "machine_param_file", attr sim "secondary_emission_parameters_file" with
  | some (.val m), some (.val s) =>
    match readParams t sim (files m) (files s) with
    | .error e => .error e
    | .ok c => overrideKw ignore c kw
  | _, _ => .error .attribute

/-- The beam file that is read (init.py:150): named by the configuration after the keyword arguments. -/
def beamFileRead {V : Type} (c : Mod V) : Option (ModVal V) := attr c "beam_parameters_file"

/-! ### Chamber and surface -/

/-- What a chamber object offers to the surface models. -/
structure ChamberObj where
  /-- `chamb_type` -/
  kind : String
  /-- the attributes `del_max_segments`, `R0_segments`, `Emax_segments` are there -/
  segs : Bool
  /-- the attributes `flag_charging`, `Q_max_segments`, `EQ_segments`, `tau_segments` are there -/
  charging : Bool
  deriving DecidableEq

/-- Reading a list of keys from the chamber dictionary; a missing one raises KeyError. -/
def readKeys (keys : List String) : List String → Except PyErr Unit
  | [] => .ok ()
  | k :: l => if k ∈ keys then readKeys keys l else .error .keyError

/-- The part of the polygon constructor that reads the chamber dictionary
(geom_impact_poly_fast_impact.py:76-96); the geometric checks are in `Model/Geometry`. -/
def polyChamber (kind : String) (keys : List String) (nunif : Bool) : Except PyErr ChamberObj :=
  match readKeys keys ["Vx", "Vy", "x_sem_ellip_insc", "y_sem_ellip_insc"] with
  | .error e => .error e
  | .ok _ =>
    if nunif then
      match readKeys keys ["del_max_segments", "R0_segments", "Emax_segments"] with
      | .error e => .error e
      | .ok _ =>
        if "flag_charging" ∈ keys then
          match readKeys keys ["Q_max_segments", "EQ_segments", "tau_segments"] with
          | .error e => .error e
          | .ok _ => .ok ⟨kind, true, true⟩
        else .ok ⟨kind, true, false⟩
    else .ok ⟨kind, false, false⟩

/-- The choice of the chamber (init.py:189-203); `rect` builds the polygon constructor's dictionary
itself (geom_impact_rect_fast_impact.py:59-70). -/
def mkChamber (ctype : String) (fileKeys : List String) (nunif : Bool) : Except PyErr ChamberObj :=
  if ctype = "ellip" then .ok ⟨"ellip", false, false⟩
  else if ctype = "polyg" ∨ ctype = "polyg_cython" then polyChamber "polyg" fileKeys nunif
  else if ctype = "rect" then
    polyChamber "rect" ["Vx", "Vy", "x_sem_ellip_insc", "y_sem_ellip_insc"] nunif
  else .error .config

/-- The needs of the surface model of one cloud (sec_emission_model_ECLOUD_nunif.py:86-108, 141-146); the
other models do not look at the chamber.  A missing attribute raises (AttributeError, here `custom`). -/
def mkSurface (ch : ChamberObj) (model : String) : Except PyErr Unit :=
  if model = "ECLOUD_nunif" ∨ model = "ECLOUD_nunif_charging" then
    if ch.kind ≠ "polyg" then .error .valueError
    else if ch.segs = false then .error .custom
    else if model = "ECLOUD_nunif_charging" ∧ ch.charging = false then .error .custom
    else .ok ()
  else .ok ()

/-- `flag_non_unif_sey` (init.py:178-181). -/
def nonUnif (models : List String) : Bool :=
  models.any (fun m => decide (m = "ECLOUD_nunif") || decide (m = "ECLOUD_nunif_charging"))

/-- Surfaces of all clouds, in order. -/
def mkSurfaces (ch : ChamberObj) : List String → Except PyErr Unit
  | [] => .ok ()
  | m :: l =>
    match mkSurface ch m with
    | .error e => .error e
    | .ok _ => mkSurfaces ch l

/-- Chamber and surfaces of a simulation (init.py:177-203, 318-396). -/
def setupWall (ctype : String) (fileKeys : List String) (models : List String) : Except PyErr ChamberObj :=
  match mkChamber ctype fileKeys (nonUnif models) with
  | .error e => .error e
  | .ok ch =>
    match mkSurfaces ch models with
    | .error e => .error e
    | .ok _ => .ok ch

/-! ### Space charge -/

/-- The field solvers that can be built. -/
inductive PicKind where
  | shortleyWeller
  | telescopic
  | staircase
  | fftPec
  | fftOpen
  /-- open boundary with different steps in x and y -/
  | fftOpenXY
  deriving DecidableEq

/-- The settings that are looked at by the constructor. -/
structure ScSettings (K : Type) where
  mode : String
  /-- the grid step: one number, or more than one (`np.atleast_1d(Dh)`) -/
  dh : List K
  dtSc : Option K
  dhU : Option K
  solver : String

/-- The space charge object. -/
structure ScObj (K : Type) where
  pic : PicKind
  /-- the step handed to the solver -/
  dh : List K
  solver : String
  /-- `xn`, `yn` are there -/
  nodes : Bool
  /-- `flag_decimate` with `Dt_sc` -/
  dtSc : Option K
  /-- `evaluate_U_eV` with `Dh_U_eV` -/
  dhU : Option K
  em : Bool

variable {K : Type}

/-- `space_charge.__init__` (space_charge_class.py:63-144) for a chamber of the given type. -/
def mkSpaceCharge (chamb : String) (s : ScSettings K) : Except PyErr (ScObj K) :=
  if s.mode = "FiniteDifferences_ShortleyWeller" then .ok ⟨.shortleyWeller, s.dh, s.solver, true, s.dtSc, s.dhU, false⟩
  else if s.mode = "ShortleyWeller_WithTelescopicGrids" then
    .ok ⟨.telescopic, s.dh, s.solver, false, s.dtSc, s.dhU, false⟩
  else if s.mode = "FiniteDifferences_Staircase" then .ok ⟨.staircase, s.dh, s.solver, true, s.dtSc, s.dhU, false⟩
  else if s.mode = "FFT_PEC_Boundary" then
    if chamb ≠ "rect" then .error .valueError
    else .ok ⟨.fftPec, s.dh, s.solver, false, s.dtSc, s.dhU, false⟩
  else if s.mode = "FFT_OpenBoundary" then
    if chamb ≠ "rect" then .error .valueError
    else if s.dh.length = 2 then .ok ⟨.fftOpenXY, s.dh, s.solver, false, s.dtSc, s.dhU, false⟩
    else .ok ⟨.fftOpen, s.dh, s.solver, false, s.dtSc, s.dhU, false⟩
  else .error .valueError

/-- The space charge of a simulation (init.py:262-283): skipped, handed in, or built; the electromagnetic
one (space_charge_class_electromagnetic.py:76-97) is built only together with the beam. -/
def setupSC (skip : Bool) (given : Option (ScObj K)) (chamb : String) (s : ScSettings K) (em skipBeam : Bool) :
    Except PyErr (Option (ScObj K)) :=
  if skip then .ok none
  else match given with
    | some o => .ok (some o)
    | none =>
      let s' := if s.solver = "klu" then { s with solver := "PyKLU" } else s
      if em then
        if skipBeam then .error .valueError
        else match mkSpaceCharge chamb s' with
          | .error e => .error e
          | .ok o => .ok (some { o with em := true })
      else match mkSpaceCharge chamb s' with
        | .error e => .error e
        | .ok o => .ok (some o)

/-- The electromagnetic restriction on the tracker of a cloud (init.py:484-517). -/
def trackerAllowed (em : Bool) (method : String) : Except PyErr Unit :=
  if method = "Boris" ∨ method = "StrongBdip" ∨ method = "StrongBgen" then
    if em then .error .valueError else .ok ()
  else if method = "BorisMultipole" then .ok ()
  else .error .config

/-- `get_potential_electric_energy`: refused without its grid (space_charge_class.py:209-211). -/
def energyAllowed (o : ScObj K) : Except PyErr K :=
  match o.dhU with
  | none => .error .valueError
  | some d => .ok d

/-- The time derivative of a vector potential (space_charge_class_electromagnetic.py:133-139): zero as
long as there is no old potential, else the difference quotient with `Dt_sc`; dividing by `None` raises. -/
def potDot [Field K] (dtSc : Option K) (old : Option K) (new : K) : Except PyErr K :=
  match old with
  | none => .ok 0
  | some a => match dtSc with
    | none => .error .typeError
    | some d => .ok ((new - a) / d)

end PyECLOUD
