import Verif.Model.Timing
import Verif.Model.Photo
import Verif.Model.AngleTool
import Mathlib.Data.List.Sort

/-!
# Model of the tool that prepares beam profiles with refined time steps

`other/prepare_non_unif_tstep_profile/000_prepare_non_unif_tstep.py`; `Dt_coarse` is `Dt` (lines 24-25, 33-34). The plots are left out.
`refine_fact` is a whole number; as the floating point number of the script it is refused by `np.linspace` of recent numpy.
-/

namespace PyECLOUD

variable {K : Type} [Field K] [LinearOrder K] [FloorRing K]

/-- `np.linspace(t_step, t_step + Dt_coarse, refine_fact + 1)[1:-1]` (000_prepare_non_unif_tstep.py:55). -/
def finePoints (dt : K) (r : ℕ) (t : K) : List K := ((npLinspace t (t + dt) (r + 1)).drop 1).dropLast

/-- `t_fine_add_single` (000_prepare_non_unif_tstep.py:48-56): the loop over the coarse times stops after `t_end_refine`. -/
def fineSingle (dt : K) (r : ℕ) (t0 t1 : K) : List K → List K
  | [] => []
  | t :: l => if t > t1 then [] else (if t ≥ t0 then finePoints dt r t else []) ++ fineSingle dt r t0 t1 l

/-- `t_nunif` (000_prepare_non_unif_tstep.py:42-62): the additional times are repeated in every slot, all times are sorted. -/
def refinedAxis (nSlots : ℕ) (bSpac tEnd dt : K) (r : ℕ) (t0 t1 : K) : List K :=
  let tc := timeGrid nSlots bSpac tEnd dt
  (tc ++ (List.range nSlots).flatMap (fun ii : ℕ => (fineSingle dt r t0 t1 tc).map (fun t => t + bSpac * (ii : K)))).insertionSort (· ≤ ·)

/-- `val_nunif = np.interp(t_nunif, t, val)` (000_prepare_non_unif_tstep.py:84) for the line densities `val` at the times of the uniform axis. -/
def refinedProfile (nSlots : ℕ) (bSpac tEnd dt : K) (r : ℕ) (t0 t1 : K) (val : List K) : Except PyErr (List K) :=
  (refinedAxis nSlots bSpac tEnd dt r t0 t1).mapM (npInterp ((timeGrid nSlots bSpac tEnd dt).zip val))

/-- `val` at one time (000_prepare_non_unif_tstep.py:38-39, 64-81): as `bunch_train4`, with a bunch length in every slot. -/
noncomputable def toolProfile (c t bSpac tOffs : ℝ) (ppb : List ℝ) (sigmaz : ℝ) : ℝ := trainAt c t bSpac tOffs 0 (ppb.map (fun p => (p, sigmaz))) 0

end PyECLOUD
