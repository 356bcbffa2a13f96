import Verif.Model.Resample
import Verif.Model.Restore

/-!
# Model of the tool that splits field maps into linear and nonlinear parts

`other/linear_characterization/000_map_unperturbed_pinch/001_isolate_linear_part.py`, up to the plots. A map is a list of slices, each with one
row per node of `xg`, as `Ex_L_map[ss, ix, iy]`. The points used for a fit are supposed to have two different abscissas: for fewer numpy warns and gives
one of many best lines.
-/

namespace PyECLOUD

variable {K : Type} [Field K] [LinearOrder K]

/-- `M[ss, :, iy] = col` (001_isolate_linear_part.py:30, 42). -/
def setCol (m : List (List K)) (iy : ℕ) (col : List K) : List (List K) := List.zipWith (fun r v => r.set iy v) m col

/-- `M[ss, ix :] = row` (001_isolate_linear_part.py:33, 45): all rows from `ix` on. -/
def rowsFrom (m : List (List K)) (ix : ℕ) (row : List K) : List (List K) := m.mapIdx (fun i r => if ix ≤ i then row else r)

/-- `Ex_L_map[ss]*0` (001_isolate_linear_part.py:18-19, 38-39). -/
def zeroMap (m : List (List K)) : List (List K) := m.map (fun r => r.map (fun v => v * 0))

/-- One slice of `Ex_lin`, for slope `k` (001_isolate_linear_part.py:29-30, 41-42). -/
def linMapX (xg yg : List K) (k : K) (m : List (List K)) : List (List K) :=
  (List.range yg.length).foldl (fun a iy => setCol a iy (xg.map (fun x => k * x))) (zeroMap m)

/-- One slice of `Ey_lin`, for slope `k` (001_isolate_linear_part.py:32-33, 44-45). -/
def linMapY (xg yg : List K) (k : K) (m : List (List K)) : List (List K) :=
  (List.range xg.length).foldl (fun a ix => rowsFrom a ix (yg.map (fun y => k * y))) (zeroMap m)

/-- Slopes of the fits on the axes for one slice (001_isolate_linear_part.py:12-16, 24-27, 35-36). No points: `np.polyfit` raises. -/
def axisSlopes (nSig sx sy : K) (xg yg : List K) (ex ey : List (List K)) : Except PyErr (K × K) := do
  let ix ← argminAbs xg 0
  let iy ← argminAbs yg 0
  let px := (xg.zip (ex.map (fun r => r.getD iy 0))).filter (fun p => decide (|p.1| ≤ nSig * sx))
  let py := (yg.zip (ey.getD ix [])).filter (fun p => decide (|p.1| ≤ nSig * sy))
  if px.isEmpty || py.isEmpty then .error .typeError else .ok ((polyfit1 px).1, (polyfit1 py).1)

/-- Difference of two slices, `Ex_L_map - Ex_lin` and the like (001_isolate_linear_part.py:47-48, 69-70). -/
def matSub (a b : List (List K)) : List (List K) := List.zipWith (fun r s => List.zipWith (fun u v => u - v) r s) a b

/-- `np.mean(M, axis=0)` (001_isolate_linear_part.py:54, 56). -/
def matMean (nx ny : ℕ) (l : List (List (List K))) : List (List K) :=
  (List.range nx).map (fun i => (List.range ny).map (fun j => (l.map (fun m => (m.getD i []).getD j 0)).sum / (l.length : K)))

/-- The five maps that are saved, for one component (001_isolate_linear_part.py:59-78). -/
structure SplitMaps (K : Type) where
  lin : List (List (List K))
  linAve : List (List (List K))
  linNoave : List (List (List K))
  nonlin : List (List (List K))
  nonlinAve : List (List (List K))
  deriving DecidableEq

/-- The maps for one component (001_isolate_linear_part.py:38-78); `lin k m` is the linear map of slope `k`. -/
def splitMaps (lin : K → List (List K) → List (List K)) (nx ny : ℕ) (maps : List (List (List K))) (ks : List K) : SplitMaps K :=
  let l := List.zipWith lin ks maps
  let ave := maps.map (fun m => lin (ks.sum / (ks.length : K)) m)
  let nonlin := List.zipWith matSub maps l
  { lin := l, linAve := ave, linNoave := List.zipWith matSub l ave, nonlin := nonlin, nonlinAve := maps.map (fun _ => matMean nx ny nonlin) }

/-- 001_isolate_linear_part.py:9-78 for `len(zg)` slices. -/
def isolateLinear (nSig sx sy : K) (xg yg : List K) (exs eys : List (List (List K))) : Except PyErr (SplitMaps K × SplitMaps K) := do
  let ks ← (exs.zip eys).mapM (fun m => axisSlopes nSig sx sy xg yg m.1 m.2)
  .ok (splitMaps (linMapX xg yg) xg.length yg.length exs (ks.map (·.1)), splitMaps (linMapY xg yg) xg.length yg.length eys (ks.map (·.2)))

end PyECLOUD
