import Verif.Model.Np

/-!
# Model of the input parameters

`input_parameters_format_specification.py:14-115`, `init.py:95-145`, `parse_cloud_file.py`. Executing an input file is not
modelled: a module is the list of its attributes, in the order of `dir()`.
-/

namespace PyECLOUD

/-- Exceptions: `PyECLOUD_ConfigException`, `AttributeError`. -/
inductive CfgErr where
  | config
  | attribute
  deriving DecidableEq, Repr

/-- An attribute of a module: a value, or another module (`types.ModuleType`). -/
inductive ModVal (V : Type) where
  | val (v : V)
  | mod
  deriving DecidableEq, Repr

variable {V : Type}

/-- A module or an object: its attributes. -/
abbrev Mod (V : Type) := List (String × ModVal V)

/-- `getattr`, `hasattr`. -/
def attr (m : Mod V) (n : String) : Option (ModVal V) := (m.find? (fun q => decide (q.1 = n))).map (fun q => q.2)

/-- `not name.startswith('_')`. -/
def isPublic (n : String) : Bool := decide (n.toList.head? ≠ some '_')

/-- `not isinstance(value, types.ModuleType)`. -/
def ModVal.isVal : ModVal V → Bool
  | .val _ => true
  | .mod => false

/-- The attributes that count as parameters (input_parameters_format_specification.py:24-27). -/
def contents (m : Mod V) : List String := (m.filter (fun q => isPublic q.1 && q.2.isVal)).map (fun q => q.1)

/-- An entry of `parameters_dict`, with the superparameters. -/
structure ParamTbl (V : Type) where
  mandatory : List String
  optional : List (String × V)
  super : List String

/-- Names of the optional parameters. -/
def ParamTbl.optNames (t : ParamTbl V) : List String := t.optional.map (fun q => q.1)

/-- `allowed_parameters` (input_parameters_format_specification.py:33). -/
def ParamTbl.allowed (t : ParamTbl V) : List String := t.mandatory ++ t.optNames ++ t.super

/-- `assert_module_has_parameters` (input_parameters_format_specification.py:14-44). -/
def assertParams {W : Type} (t : ParamTbl W) (m : Mod V) : Except CfgErr Unit :=
  let extra := (contents m).filter (fun n => decide (n ∉ t.allowed))
  let missing := t.mandatory.filter (fun n => decide (n ∉ contents m))
  if extra ≠ [] ∨ missing ≠ [] then .error .config else .ok ()

/-- `update_module` (input_parameters_format_specification.py:47-63). -/
def updateModule : Mod V → Mod V → Except CfgErr (Mod V)
  | m, [] => .ok m
  | m, (n, v) :: l =>
    if n = "pi" then updateModule m l
    else if isPublic n = false ∨ v.isVal = false then updateModule m l
    else if (attr m n).isSome then .error .config
    else updateModule (m ++ [(n, v)]) l

/-- `config_dict[n] = v`. -/
def dictSet (c : Mod V) (n : String) (v : ModVal V) : Mod V := c.filter (fun q => decide (q.1 ≠ n)) ++ [(n, v)]

/-- Mandatory parameters (input_parameters_format_specification.py:71-74). -/
def cfgMandatory (m : Mod V) : Mod V → List String → Except CfgErr (Mod V)
  | c, [] => .ok c
  | c, p :: l => match attr m p with
    | none => .error .attribute
    | some v => cfgMandatory m (dictSet c p v) l

/-- Value of an optional parameter (input_parameters_format_specification.py:80-85). -/
def optValue (m : Mod V) (dflt : Option (Mod V)) (p : String) (d : V) : ModVal V :=
  match attr m p with
  | some v => v
  | none => match dflt with
    | none => .val d
    | some o => match attr o p with
      | some v => v
      | none => .val d

/-- Optional parameters (input_parameters_format_specification.py:78-92). -/
def cfgOptional (m : Mod V) (dflt : Option (Mod V)) : Mod V → List (String × V) → Except CfgErr (Mod V)
  | c, [] => .ok c
  | c, (p, d) :: l =>
    if (attr c p).isSome then .error .config else cfgOptional m dflt (dictSet c p (optValue m dflt p d)) l

/-- `update_config_dict` (input_parameters_format_specification.py:66-95). -/
def updateConfig (t : ParamTbl V) (m : Mod V) (dflt : Option (Mod V)) (c : Mod V) : Except CfgErr (Mod V) := do
  let c1 ← cfgMandatory m c t.mandatory
  cfgOptional m dflt c1 t.optional

/-- `copy_to_config_dict` (input_parameters_format_specification.py:98-115). -/
def copyConfig (t : ParamTbl V) (dflt : Mod V) (c : Mod V) : Except CfgErr (Mod V) :=
  cfgMandatory dflt c (t.mandatory ++ t.optNames)

/-- `read_parameter_files` (init.py:95-125) with the beam file skipped: three modules are joined, checked and turned into the
configuration. The three file names must be there (init.py:102-104). -/
def readParams (t : ParamTbl V) (sim mach sec : Mod V) : Except CfgErr (Mod V) :=
  if (attr sim "machine_param_file").isNone ∨ (attr sim "secondary_emission_parameters_file").isNone ∨
      (attr sim "beam_parameters_file").isNone then .error .attribute
  else do
    let m1 ← updateModule sim mach
    let m2 ← updateModule m1 sec
    let _ ← assertParams t m2
    updateConfig t m2 none []

/-- Overriding with keyword arguments (init.py:134-142). -/
def overrideKw (ignore : List String) : Mod V → Mod V → Except CfgErr (Mod V)
  | c, [] => .ok c
  | c, (n, v) :: l =>
    if n ∈ ignore then overrideKw ignore c l
    else if (attr c n).isSome then overrideKw ignore (dictSet c n v) l
    else .error .config

/-- `cloud_descr_from_file` (parse_cloud_file.py:5-46): parameters of a cloud from its file, or from the main input; the output
name and cloud name are then set (the naming is `cloudOut`). -/
def cloudConfig (t : ParamTbl V) (file : Option (Mod V)) (main : Mod V) (outp name : V) : Except CfgErr (Mod V) := do
  let c ← match file with
    | none => copyConfig t main []
    | some f => do
      let _ ← assertParams t f
      updateConfig t f (some main) []
  .ok (dictSet (dictSet c "filen_main_outp" (.val outp)) "cloud_name" (.val name))

/-- `s.split(sep)[0]`: what stands before the first occurrence of `sep`. Strings are lists of characters. -/
def beforeSep (sep : List Char) : List Char → List Char
  | [] => []
  | c :: l => if sep.isPrefixOf (c :: l) then [] else c :: beforeSep sep l

/-- `s.split('/')[-1]`: what stands after the last `/`. -/
def afterSlash : List Char → List Char
  | [] => []
  | c :: l => if '/' ∈ c :: l then afterSlash l else c :: l

/-- Name of the cloud of a file (parse_cloud_file.py:36). -/
def cloudNameOf (path : List Char) : List Char := beforeSep ".cloud".toList (afterSlash path)

/-- Output file of a named cloud (parse_cloud_file.py:13-14, 38-39). -/
def cloudOut (main name : List Char) : List Char := beforeSep ".mat".toList main ++ "_".toList ++ name ++ ".mat".toList

/-- Output file of the default cloud (parse_cloud_file.py:11-17). -/
def defaultOut (main : List Char) (name : Option (List Char)) : List Char :=
  match name with
  | none => main
  | some n => cloudOut main n

end PyECLOUD
