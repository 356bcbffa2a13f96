import Verif.Model.PyHT
import Verif.Model.InitCalls

/-!
# E-clouds in PyHEADTAIL: re-initialisation of the saver and twins sharing the space charge
-/

namespace PyECLOUD

/-- The call of `start_observing` in `_reinitialize` (PyEC4PyHT.py:705-736); `thisconf` is the configuration of the cloud, `cc` the main
one. The members of the cloud and of the simulation (`thiscloud.MP_e`, `len(self.cloudsim.cloud_list) > 1`, ...) are written as the
variables of init.py they come from. -/
def callSaverReinit : PyCall where
  pos := [
    .main "Dt", .expr "MP_e", .expr "None", .expr "impact_man", .cloud "r_center", .cloud "Dt_En_hist",
    .cloud "logfile_path", .cloud "progress_path"]
  kw := [
    ("flag_detailed_MP_info", .cloud "flag_detailed_MP_info"), ("flag_movie", .cloud "flag_movie"),
    ("flag_sc_movie", .cloud "flag_sc_movie"), ("save_mp_state_time_file", .cloud "save_mp_state_time_file"),
    ("flag_presence_sec_beams", .expr "flag_presence_sec_beams"), ("sec_beams_list", .expr "sec_beams_list"),
    ("dec_fac_secbeam_prof", .cloud "dec_fac_secbeam_prof"), ("el_density_probes", .cloud "el_density_probes"),
    ("save_simulation_state_time_file", .cloud "save_simulation_state_time_file"),
    ("x_min_hist_det", .cloud "x_min_hist_det"), ("x_max_hist_det", .cloud "x_max_hist_det"),
    ("y_min_hist_det", .cloud "y_min_hist_det"), ("y_max_hist_det", .cloud "y_max_hist_det"),
    ("Dx_hist_det", .cloud "Dx_hist_det"), ("dec_fact_out", .main "dec_fact_out"), ("stopfile", .main "stopfile"),
    ("filen_main_outp", .cloud "filen_main_outp"), ("flag_cos_angle_hist", .cloud "flag_cos_angle_hist"),
    ("cos_angle_width", .cloud "cos_angle_width"), ("flag_multiple_clouds", .expr "flag_multiple_clouds"),
    ("cloud_name", .cloud "cloud_name"), ("flag_last_cloud", .expr "flag_last_cloud")]

/-- Parameters of `Ecloud` (PyEC4PyHT.py:127-141; the further keyword arguments are left out). -/
def sigEcloud : PySig := [
    ("L_ecloud", none), ("slicer", none), ("Dt_ref", none), ("pyecl_input_folder", some "'./'"),
    ("flag_clean_slices", some "False"), ("slice_by_slice_mode", some "False"), ("space_charge_obj", some "None"),
    ("kick_mode_for_beam_field", some "False"), ("beam_monitor", some "None"), ("verbose", some "False"),
    ("save_pyecl_outp_as", some "None"), ("force_interp_at_substeps_interacting_slices", some "False")]

/-- The call in `generate_twin_ecloud_with_shared_space_charge` (PyEC4PyHT.py:111-125): the arguments are members of the e-cloud. -/
def callTwin : PyCall where
  pos := [
    .expr "self.L_ecloud", .expr "self.slicer", .expr "self.Dt_ref", .expr "self.pyecl_input_folder",
    .expr "self.flag_clean_slices", .expr "self.slice_by_slice_mode", .expr "self.spacech_ele",
    .expr "self.kick_mode_for_beam_field", .expr "self.beam_monitor", .expr "self.verbose", .expr "self.save_pyecl_outp_as",
    .expr "self.force_interp_at_substeps_interacting_slices"]
  kw := []

/-- `generate_twin_ecloud_with_shared_space_charge` (PyEC4PyHT.py:104-125): refused when the e-cloud has been replaced by a field map. -/
def genTwin {V : Type} (replaced : Bool) (st : Settings V) : Except PyErr (String → Option V) :=
  if replaced then .error .valueError
  else do
    let b ← bindCall sigEcloud callTwin
    .ok (fun p => (b.lookup p).map (ArgSrc.eval st))

/-- What twins share: the field in the solver and the time of the last recomputation. -/
structure Shared (K F : Type) where
  field : F
  tLast : K

variable {K : Type} [Field K] [LinearOrder K] [FloorRing K] {C F : Type}

/-- E-cloud `k` of several that share the space charge tracks a bunch: `trackBunch` (PyEC4PyHT.py:385-427) on the shared solver. -/
def twinTrack (g : EcCfg K) (m : EcSim K C F) (st : ℕ → EcSt K C F) (sh : Shared K F) (k : ℕ) (slices : List (SliceIn K)) :
    Except PyErr ((ℕ → EcSt K C F) × Shared K F × List (SliceIn K)) := do
  let (s, out) ← trackBunch g m { st k with field := sh.field, tLast := sh.tLast } slices
  .ok (fun j => if j = k then s else st j, ⟨s.field, s.tLast⟩, out)

/-- A sequence of interactions of bunches with the e-clouds of a ring; the result lists the bunches after their interactions. -/
def twinRun (g : EcCfg K) (m : EcSim K C F) : List (ℕ × List (SliceIn K)) → (ℕ → EcSt K C F) → Shared K F →
    Except PyErr ((ℕ → EcSt K C F) × Shared K F × List (List (SliceIn K)))
  | [], st, sh => .ok (st, sh, [])
  | (k, sl) :: l, st, sh => do
    let (st1, sh1, out) ← twinTrack g m st sh k sl
    let (st2, sh2, outs) ← twinRun g m l st1 sh1
    .ok (st2, sh2, out :: outs)

end PyECLOUD
