import Verif.Model.Yield
import Verif.Model.Photo

/-!
# Model of the tool that prepares yield tables (other/sey_files/resample_sey.py)

Its dictionary is what `SEY_model_from_file` takes as `sey_file`.
-/

namespace PyECLOUD

variable {K : Type} [Field K] [LinearOrder K]

/-- `np.polyfit(x, y, 1)` (resample_sey.py:12) by its result: slope and constant of the least squares line. numpy solves the same
problem by a singular value decomposition. -/
def polyfit1 (pts : List (K × K)) : K × K :=
  let n := (pts.length : K)
  let mx := (pts.map (·.1)).sum / n
  let my := (pts.map (·.2)).sum / n
  let g := (pts.map (fun p => (p.1 - mx) * (p.2 - my))).sum / (pts.map (fun p => (p.1 - mx) * (p.1 - mx))).sum
  (g, my - g * mx)

/-- `get_linear_extrapolation_parameters` (resample_sey.py:5-14); the points are the pairs of `x` and `y`. The maximum of an empty array
raises. -/
def extrapPars (pts : List (K × K)) (range : K) : Except PyErr (K × K) :=
  match pts with
  | [] => .error .valueError
  | p :: l =>
    let top := (l.map (·.1)).foldl max p.1
    let fit := (p :: l).filter (fun q => decide (top - range < q.1))
    if fit.length < 2 then .error .valueError else .ok (polyfit1 fit)

/-- The dictionary returned by `resample_sey_data` (resample_sey.py:32-40). -/
structure SeyDict (K : Type) where
  energies : List K
  true' : List K
  elast : List K
  gradTrue : K
  constTrue : K
  gradElast : K
  constElast : K
  deriving DecidableEq

variable [FloorRing K]

/-- `np.arange(a, b, d)`. -/
def npArange (a b d : K) : List K := (List.range ⌈(b - a) / d⌉.toNat).map (fun i : ℕ => a + (i : K) * d)

/-- `resample_sey_data` (resample_sey.py:19-42). `np.interp` refuses arrays of different lengths. A zero step raises. -/
def resampleSey (e tr el : List K) (dE range : K) : Except PyErr (SeyDict K) :=
  match e with
  | [] => .error .valueError
  | e0 :: es =>
    if dE = 0 then .error .zeroDivision
    else do
      let grid := npArange (es.foldl min e0) (es.foldl max e0 + dE * (1 / 2)) dE
      if tr.length ≠ e.length then .error .valueError
      let t ← grid.mapM (npInterp (e.zip tr))
      let pt ← extrapPars (grid.zip t) range
      if el.length ≠ e.length then .error .valueError
      let l ← grid.mapM (npInterp (e.zip el))
      let pe ← extrapPars (grid.zip l) range
      .ok ⟨grid, t, l, pt.1, pt.2, pe.1, pe.2⟩

/-- The surface made from the dictionary (sec_emission_model_from_file.py:88-136). -/
def SeyDict.surface (d : SeyDict K) (scale shift : Bool) : Except PyErr (SeyTable K) :=
  seyTableOf d.energies d.true' d.elast d.constTrue d.gradTrue d.constElast d.gradElast scale shift

end PyECLOUD
