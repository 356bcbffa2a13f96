import Verif.Model.Timing
import Verif.Model.BeamMap
import Verif.Model.Hist

/-!
# Filling pattern of a bunched beam and magnetic field map from file

beam_and_timing.py:100-135 and `B_file.__init__` of dynamics_Boris_f2py.py.
-/

namespace PyECLOUD

/-- An array of a `.mat` file after `np.squeeze`: one value has no axis left. -/
inductive MatVal where
  | scalar (v : ℝ)
  | vec (l : List ℝ)

/-- The contents of a filling pattern file: `ppb_vect`, whether it is stored as integers, `sigmaz_vect` if there is one. -/
structure FillFile where
  ppb : MatVal
  isInt : Bool
  sigmaz : Option MatVal

/-- `filling_pattern_file`: a list of intensities (or one, which `np.atleast_1d` turns into a list) or the name of a file. -/
inductive FillPat where
  | direct (l : List ℝ)
  | file (name : String)

/-- The filling pattern (beam_and_timing.py:103-116). `load` is `sio.loadmat`. A list is converted to floats. -/
noncomputable def fillLoad (load : String → Except PyErr FillFile) : FillPat → Except PyErr FillFile
  | .direct l => .ok ⟨.vec l, false, none⟩
  | .file n => if ".mat".toList <:+: n.toList then load n else .error .valueError

/-- `sigmaz_vect = 0 * ppb_vect; sigmaz_vect[ppb_vect > 0] = sigmaz` (beam_and_timing.py:129-131): the array has the type of `ppb_vect`, so
that an integer one keeps the integer part only. -/
noncomputable def sigmaFill (isInt : Bool) (sigmaz : ℝ) (ppb : List ℝ) : List ℝ :=
  ppb.map (fun p => if p > 0 then (if isInt then ((truncZ sigmaz : ℤ) : ℝ) else sigmaz) else 0)

/-- Intensities and lengths of the bunches (beam_and_timing.py:100-135), and the loop of `bunch_train4` as far as it can fail (lines 61-81).
`ppb_vect` without an axis has no length; `sigmaz_vect` has to be long enough. -/
noncomputable def beamTrain (load : String → Except PyErr FillFile) (pat : FillPat) (sigmaz : ℝ) : Except PyErr (List (ℝ × ℝ)) := do
  let f ← fillLoad load pat
  match f.ppb with
  | .scalar _ => .error .typeError
  | .vec ppb =>
    match f.sigmaz with
    | some (.vec sz) => if ppb.length ≤ sz.length then .ok (ppb.zip sz) else .error .indexError
    | some (.scalar _) => if ppb.length = 0 then .ok [] else .error .indexError
    | none => if sigmaz = -1 then .error .valueError else .ok (ppb.zip (sigmaFill f.isInt sigmaz ppb))

/-- `lam_t_array` at one time (beam_and_timing.py:135, 163-164). -/
noncomputable def trainDensity (c t bSpac tOffs factBeam coast : ℝ) (l : List (ℝ × ℝ)) : ℝ :=
  factBeam * trainAt c t bSpac tOffs 0 l 0 + coast

/-- `fact_Bmap * ...` for one component of the map (dynamics_Boris_f2py.py:104-108). -/
def scaleMap {K : Type} [Field K] (fact : K) (l : List (List K)) : List (List K) := l.map (fun r => r.map (fun v => fact * v))

/-- `B_file.__init__` (dynamics_Boris_f2py.py:100-120): `m` holds `xx`, `yy`, `Bx`, `By` of the file, `bz` the map `Bz` if there is one. -/
def bmapLoad {K : Type} [Field K] [LinearOrder K] (fact : K) (m : AxMap K) (bz : Option (List (List K))) : Except PyErr (BSrc K) :=
  match AxMap.grid { m with ex := scaleMap fact m.ex, ey := scaleMap fact m.ey } with
  | .error e => .error e
  | .ok g => .ok (.file g.nx g.ny g.xmin g.ymin g.dx g.dy g.ex g.ey (bz.map (fun b => nodeVal (scaleMap fact b))))

end PyECLOUD
