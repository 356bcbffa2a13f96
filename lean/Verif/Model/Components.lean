import Verif.Model.Yield
import Verif.Model.MPSystem

/-!
# Construction of the parts of a cloud

The loop over the clouds in `read_input_files_and_init_components` (init.py:289-545): choice of the surface model with its
parameters, histogram flags, sources, initial macroparticles.
-/

namespace PyECLOUD

/-- What goes wrong during the construction. -/
inductive InitErr where
  | config
  | typeError
  | valueError
  | attribute
  | mp (e : PyErr)
  deriving DecidableEq

/-- A setting that is a number or a name (`switch_model`, `photoem_flag`, `gas_ion_flag`). -/
inductive Sel where
  | int (n : ℤ)
  | str (s : String)
  deriving DecidableEq

/-- The settings of the surface of one cloud (init.py:314-400). `e0` and `s` are `None` unless given. -/
structure SurfSet where
  switch : Sel
  e0 : Option ℝ
  s : Option ℝ
  eMax : ℝ
  delMax : ℝ
  r0 : ℝ
  scale : Bool
  shift : Bool

/-- The object stored as `sey_mod` with its parameters. -/
inductive Surf where
  | absorber
  | ecloud (p : YieldPar)
  | accLow (p : YieldPar)
  | nonUnif (p : YieldPar)
  | charging (p : YieldPar)
  | cosLow (p : YieldPar)
  | flatLow (p : YieldPar)
  | table (scale shift : Bool)
  | furman (scale shift : Bool)

/-- Parameters of a model that has no angular flags and no `s` of its own: the constructors fix them
(sec_emission_model_accurate_low_ene.py:58-74 and the like). -/
noncomputable def SurfSet.fixed (c : SurfSet) (dflt : ℝ) : YieldPar :=
  ⟨c.eMax, c.delMax, c.r0, c.e0.getD dflt, 1.35, true, true⟩

open Classical in
/-- The choice of the surface model (init.py:314-400). `polyg`: the chamber is a polygon. A keyword that the constructor does not
take is a `TypeError`. The reading of the table and of the Furman-Pivi parameters is not included. -/
noncomputable def surfaceOf (polyg : Bool) (c : SurfSet) : Except InitErr Surf :=
  if c.switch = .str "perfect_absorber" then .ok .absorber
  else if c.s.isSome ∧ ¬ (c.switch = .int 0 ∨ c.switch = .str "ECLOUD") then .error .config
  else if c.switch = .int 0 ∨ c.switch = .str "ECLOUD" then
    .ok (.ecloud ⟨c.eMax, c.delMax, c.r0, c.e0.getD 150, c.s.getD 1.35, c.scale, c.shift⟩)
  else if c.switch = .int 1 ∨ c.switch = .str "ACC_LOW" then .ok (.accLow (c.fixed 150))
  else if c.switch = .str "ECLOUD_nunif" then if polyg then .ok (.nonUnif (c.fixed 150)) else .error .valueError
  else if c.switch = .str "ECLOUD_nunif_charging" then if polyg then .ok (.charging (c.fixed 150)) else .error .valueError
  else if c.switch = .str "cos_low_ene" then .ok (.cosLow (c.fixed 30))
  else if c.switch = .str "flat_low_ene" then if c.e0.isSome then .error .typeError else .ok (.flatLow (c.fixed 0))
  else if c.switch = .str "from_file" then if c.e0.isSome then .error .typeError else .ok (.table c.scale c.shift)
  else if c.switch = .str "furman_pivi" then if c.e0.isSome then .error .typeError else .ok (.furman c.scale c.shift)
  else .error .config

/-- The yield and elastic fraction of a uniform surface with a formula; the surface with accurate low energies is described by its
total yield (sec_emission_model_accurate_low_ene.py:101-113 with C26). -/
noncomputable def Surf.yield : Surf → ℝ → ℝ → Option (ℝ × ℝ)
  | .absorber, _, _ => some (0, 0)
  | .ecloud p, e, cth => some (yieldECLOUD p e cth)
  | .accLow p, e, cth => some (yieldTrue p e cth + yieldRefl p e, yieldRefl p e)
  | .cosLow p, e, cth => some (yieldCos p e cth)
  | .flatLow p, e, cth => some (yieldFlat p e cth)
  | _, _, _ => none

/-! ## Sources and histogram flags -/

/-- The class made for `photoem_flag` (init.py:427-448). -/
inductive PhotoKind where
  | beam
  | fromFile
  | perSegment
  deriving DecidableEq

/-- The choice of the photoemission class (init.py:427-450): `None` for every other value of the flag. -/
def photoBuilt (flag : Sel) : Option PhotoKind :=
  if flag = .int 1 then some .beam
  else if flag = .int 2 ∨ flag = .str "from_file" then some .fromFile
  else if flag = .int 3 ∨ flag = .str "per_segment" then some .perSegment
  else none

/-- The gas ionisation object (init.py:421-425): `None` unless the flag is 1. -/
def gasBuilt (flag : Sel) : Bool := decide (flag = .int 1)

/-- The sources called in one time step for one cloud (buildup_simulation.py:396-427); calling a method of `None` is an
`AttributeError`. -/
inductive SrcCall where
  | gas
  | photo (k : PhotoKind)
  deriving DecidableEq

/-- `_primary_generation` for a cloud with the given flags at time `tt` (buildup_simulation.py:396-427), main beam only. -/
def primaryCalls {K : Type} [LinearOrder K] (gasFlag photoFlag : Sel) (tIon tt : K) : Except InitErr (List SrcCall) :=
  match ((if tt < tIon ∧ gasFlag = .int 1 then (if gasBuilt gasFlag then .ok [.gas] else .error .attribute) else .ok []) :
      Except InitErr (List SrcCall)) with
  | .error e => .error e
  | .ok g =>
    if photoFlag ≠ .int 0 then
      match photoBuilt photoFlag with
      | none => .error .attribute
      | some k => .ok (g ++ [.photo k])
    else .ok g

/-- Settings of the lifetime histogram; they can be given in the main files and in the file of an additional cloud
(default_input_parameters.py:94-97, 436-439). -/
structure LifeSet where
  on : Bool
  nBin : Option ℕ
  max : Option ℚ
  dt : Option ℚ
  deriving DecidableEq

/-- What the components of one cloud were given: the macroparticles have times of impact, the impact manager fills a
histogram of `nBin` bins up to `max`, the saver reads it. -/
structure LifeParts where
  mp : Bool
  manager : Bool
  nBin : Option ℕ
  max : Option ℚ
  saver : Bool
  deriving DecidableEq

/-- Wiring of the lifetime histogram for one cloud (init.py:305-312, 409-418, 471): the impact manager is given the main
settings, the macroparticles and the saver those of the cloud. -/
def lifeParts (main cloud : LifeSet) : Except InitErr LifeParts :=
  if main.on = true ∧ (main.nBin = none ∨ main.max = none ∨ main.dt = none) then .error .config
  else .ok ⟨cloud.on, main.on, main.nBin, main.max, cloud.on⟩

/-- One time step: impacts (impact_management_class.py:242-250) use the times of the macroparticles if the manager has the
histogram; the saver (pyecloud_saver.py:1204-1210) reads the histogram of the manager if it is due. -/
def LifeParts.step (p : LifeParts) (impacts due : Bool) : Except InitErr Unit :=
  if p.manager && impacts && !p.mp then .error .attribute
  else if p.saver && due && !p.manager then .error .attribute
  else .ok ()

/-! ## Initial macroparticles -/

section

variable {K : Type} [Field K] [LinearOrder K]

/-- `-np.sqrt(2. * (E_init / 3.) * np.abs(charge) / mass)` (MP_system.py:452, 502 and, with the elementary charge,
gas_ionization_class.py:86). -/
def initSpeed (sq : K → K) (eInit absCharge mass : K) : K := -sq (2 * (eInit / 3) * absCharge / mass)

/-- Limits of a rectangle, `None` if not given. -/
structure RectOpt (K : Type) where
  xMax : Option K
  xMin : Option K
  yMax : Option K
  yMin : Option K

/-- Settings of the initial macroparticles (init.py:518-533). -/
structure InitPop (K : Type) where
  unif : Bool
  nel : K
  eUnif : K
  rUnif : RectOpt K
  dens : Bool
  nEle : K
  eDens : K
  rDens : RectOpt K
  file : Option (MPDict K)

/-- The initial macroparticles (init.py:518-533): a number of electrons, then a density, then a file. -/
def initialMPs [FloorRing K] (sq : K → K) (absCharge mass : K) (outside : K → K → Bool) (xAper yAper : K) (o : InitPop K) (d1 d2 : UniDraws K)
    (s : MPs K) : Except PyErr (MPs K) :=
  match (if o.unif then s.addUniform outside (Rect.ofOpt xAper yAper o.rUnif.xMax o.rUnif.xMin o.rUnif.yMax o.rUnif.yMin)
      (initSpeed sq o.eUnif absCharge mass) o.nel d1 else .ok s) with
  | .error e => .error e
  | .ok s1 =>
    match (if o.dens then s1.addDensity outside (Rect.ofOpt xAper yAper o.rDens.xMax o.rDens.xMin o.rDens.yMax o.rDens.yMin)
        (initSpeed sq o.eDens absCharge mass) o.nEle d2 else .ok s1) with
    | .error e => .error e
    | .ok s2 =>
      match o.file with
      | none => .ok s2
      | some f => s2.addDict f

end

end PyECLOUD
