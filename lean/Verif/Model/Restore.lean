import Verif.Model.Np
import Mathlib.Algebra.Order.Group.Abs
import Mathlib.Algebra.Order.Field.Basic

/-!
# Model of `load_from_output` (pyecloud_saver.py:576-693)

A variable of the output file is a single number or a series of rows (`R`), the first axis being time. Reading the file itself
is not modelled.
-/

namespace PyECLOUD

variable {K R : Type} [Field K] [LinearOrder K]

/-- A variable of the output file. -/
inductive OutVar (R : Type) where
  | scalar (v : R)
  | series (l : List R)
  deriving DecidableEq

/-- `series[:n]`, or the number itself (pyecloud_saver.py:667-670). -/
def OutVar.head (n : ℕ) : OutVar R → OutVar R
  | .scalar v => .scalar v
  | .series l => .series (l.take n)

/-- Index of the first smallest entry. -/
def argminAux (t : K) : List K → ℕ → ℕ → K → ℕ
  | [], _, best, _ => best
  | a :: l, i, best, m => if |a - t| < m then argminAux t l (i + 1) i |a - t| else argminAux t l (i + 1) best m

/-- `np.abs(ts - t).argmin()`; an empty array is an error. -/
def argminAbs (ts : List K) (t : K) : Except PyErr ℕ :=
  match ts with
  | [] => .error .valueError
  | a :: l => .ok (argminAux t l 1 0 |a - t|)

/-- Series saved at every (decimated) time step (pyecloud_saver.py:595-609). -/
def stepNames : List String := ["En_emit_eV_time", "En_imp_eV_time", "En_kin_eV_time", "Nel_emit_time", "Nel_imp_time", "Nel_timep",
  "cen_density", "lam_t_array", "N_mp_time", "nel_mp_ref_time", "Nel_cross_ion", "N_mp_cross_ion", "DN_cross_ion",
  "En_electric_eV_time", "t"]

/-- Series saved at every passage (pyecloud_saver.py:611-629); the last three names are missing the commas between them and make
one name. -/
def passNames : List String := ["En_hist", "all_Ekin_hist", "t_En_hist", "N_mp_corrected_pass", "N_mp_impact_pass", "N_mp_pass",
  "N_mp_ref_pass", "energ_eV_impact_hist", "energ_eV_impact_seg", "nel_hist", "nel_hist_det", "nel_hist_impact_seg",
  "nel_hist_emit_seg", "nel_impact_hist_scrub", "nel_impact_hist_tot", "cos_angle_hist",
  "t_hist" ++ "lifetime_hist" ++ "t_lifetime_hist"]

/-- Variables restored as they are (pyecloud_saver.py:631-653); `lifetime_g_hist` only with the lifetime histogram (656-657). -/
def constNames (lifetime : Bool) : List String := ["xg_hist", "xg_hist_det", "En_g_hist", "b_spac", "t_sec_beams",
  "sec_beam_profiles", "x_el_dens_probes", "y_el_dens_probes", "r_el_dens_probes", "xg_hist_cos_angle", "el_dens_at_probes",
  "dec_fact_out", "chamber_area", "sey_test_del_true_mat", "sey_test_E_impact_eV", "sey_test_del_elast_mat", "del_rediff_mat",
  "sey_test_cos_theta", "ene_dist_test_cos_theta", "ene_dist_test_E_impact_eV", "emit_ene_dist_test", "U_sc_eV"] ++
  (if lifetime then ["lifetime_g_hist"] else [])

/-- The contents of the output file: its time bases and all its variables. -/
structure OutFile (K R : Type) where
  t : List K
  tHist : List K
  tSc : List K
  var : String → Option (OutVar R)

/-- What is taken from the file for each variable (pyecloud_saver.py:664-689). -/
def restoredVar (lifetime : Bool) (f : OutFile K R) (iT iH iS : ℕ) (v : String) : Option (OutVar R) :=
  if v ∈ stepNames then (f.var v).map (OutVar.head iT)
  else if v ∈ passNames then (f.var v).map (OutVar.head (iH + 1))
  else if v ∈ constNames lifetime then f.var v
  else if v = "t_sc_video" then (f.var v).map (OutVar.head (iS + 1))
  else none

/-- `load_from_output(last_t)`: the saver's variables afterwards; `fresh` are those of the newly created saver, `custom` says whether
custom step-by-step observables are in use. -/
def loadFromOutput (lifetime custom : Bool) (fresh : String → OutVar R) (f : OutFile K R) (lastT : K) :
    Except PyErr (String → OutVar R) :=
  if custom then .error .valueError else do
    let iT ← argminAbs f.t lastT
    let iH ← argminAbs f.tHist lastT
    let iS ← argminAbs f.tSc lastT
    .ok (fun v => (restoredVar lifetime f iT iH iS v).getD (fresh v))

end PyECLOUD
