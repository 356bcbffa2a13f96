import Verif.Model.Config

/-!
# Construction of the components from the settings

The calls of `read_input_files_and_init_components` (init.py:130-560) that hand the settings to the components,
transcribed argument by argument, and the rules of Python by which the arguments of a call are bound to the parameters
of the function. An argument is a setting of the cloud (`thiscloud.x`), of the main input (`cc.x`), of a beam file
(`b_par.x`, `sb_par.x`) or another expression (kept as text).
-/

namespace PyECLOUD

/-- An argument expression. -/
inductive ArgSrc where
  | cloud (p : String)
  | main (p : String)
  | beam (p : String)
  | secBeam (p : String)
  | expr (e : String)
  deriving DecidableEq, Repr

/-- Parameters of a function in order, with the text of the default value if there is one (`self` left out). -/
abbrev PySig := List (String × Option String)

/-- A call: positional and keyword arguments. -/
structure PyCall where
  pos : List ArgSrc
  kw : List (String × ArgSrc)

/-- Binding of the arguments to the parameters (Python language rules for functions without `*args` and `**kwargs`): the
positional arguments go to the first parameters (too many: TypeError), a keyword must be the name of a parameter that has
no value yet (otherwise TypeError), the rest takes its default (TypeError when there is none). -/
def bindPos : PySig → List ArgSrc → Except PyErr (List (String × ArgSrc) × PySig)
  | sg, [] => .ok ([], sg)
  | [], _ :: _ => .error .typeError
  | (n, _) :: sg, a :: l => do
    let r ← bindPos sg l
    .ok ((n, a) :: r.1, r.2)

/-- the parameters left after the positional ones -/
def bindRest (kw : List (String × ArgSrc)) : PySig → Except PyErr (List (String × ArgSrc))
  | [] => .ok []
  | (n, d) :: sg => do
    let v ← match kw.lookup n, d with
      | some a, _ => .ok a
      | none, some e => .ok (.expr e)
      | none, none => .error PyErr.typeError
    let r ← bindRest kw sg
    .ok ((n, v) :: r)

/-- the whole binding -/
def bindCall (sg : PySig) (c : PyCall) : Except PyErr (List (String × ArgSrc)) := do
  let r ← bindPos sg c.pos
  if c.kw.all (fun k => r.2.any (fun p => p.1 == k.1)) && decide ((c.kw.map Prod.fst).Nodup) then
    let q ← bindRest c.kw r.2
    .ok (r.1 ++ q)
  else .error .typeError

/-- All settings of a run as seen when the components of one cloud are built; `val` is the value of any other
expression. -/
structure Settings (V : Type) where
  main : String → V
  cloud : String → V
  beam : String → V
  secBeam : String → V
  val : String → V

/-- value of an argument -/
def ArgSrc.eval {V : Type} (s : Settings V) : ArgSrc → V
  | .cloud p => s.cloud p
  | .main p => s.main p
  | .beam p => s.beam p
  | .secBeam p => s.secBeam p
  | .expr e => s.val e

/-- The value a parameter of a function receives in a call. -/
def received {V : Type} (s : Settings V) (sg : PySig) (c : PyCall) (param : String) : Except PyErr (Option V) := do
  let b ← bindCall sg c
  .ok ((b.lookup param).map (ArgSrc.eval s))

/-- Parameters of `beam_and_timing` (beam_and_timing.py:85-93). -/
def sigBeam : PySig := [
    ("flag_bunched_beam", none), ("fact_beam", none), ("coast_dens", none), ("beam_charge", none),
    ("beam_field_file", none), ("lam_th_beam_field", none), ("b_spac", some "None"), ("sigmaz", some "None"),
    ("t_offs", some "None"), ("filling_pattern_file", some "None"), ("Dt", some "None"), ("t_end", some "None"),
    ("beam_long_prof_file", some "None"), ("Dh_beam_field", some "None"), ("f_telescope_beam", some "None"),
    ("target_grid_beam", some "None"), ("N_nodes_discard_beam", some "None"), ("N_min_Dh_main_beam", some "None"),
    ("chamb", some "None"), ("sigmax", some "None"), ("sigmay", some "None"), ("x_beam_pos", some "0.0"),
    ("y_beam_pos", some "0.0"), ("save_beam_field_file_as", some "None"), ("flag_secodary_beam", some "False"),
    ("t_primary_beam", some "None"), ("Nx", some "None"), ("Ny", some "None"), ("nimag", some "None"),
    ("progress_mapgen_file", some "None")]

/-- Parameters of `MP_system` (MP_system.py:67-72). -/
def sigMP : PySig := [
    ("N_mp_max", none), ("nel_mp_ref_0", none), ("fact_split", none), ("fact_clean", none), ("N_mp_regen_low", none),
    ("N_mp_regen", none), ("N_mp_after_regen", none), ("Dx_hist_reg", none), ("Nx_reg", none), ("Ny_reg", none),
    ("Nvx_reg", none), ("Nvy_reg", none), ("Nvz_reg", none), ("regen_hist_cut", none), ("chamb", none),
    ("N_mp_soft_regen", some "None"), ("N_mp_after_soft_regen", some "None"), ("N_mp_async_regen", some "None"),
    ("N_mp_after_async_regen", some "None"), ("charge", some "-e"), ("mass", some "m_e"),
    ("flag_lifetime_hist", some "False"), ("name", some "None")]

/-- Parameters of `impact_management` (impact_management_class.py:60-66). -/
def sigImpact : PySig := [
    ("chamb", none), ("sey_mod", none), ("Dx_hist", none), ("scrub_en_th", none), ("Nbin_En_hist", none),
    ("En_hist_max", none), ("Nbin_lifetime_hist", some "None"), ("lifetime_hist_max", some "None"),
    ("flag_lifetime_hist", some "False"), ("flag_seg", some "False"), ("flag_En_hist_seg", some "False"),
    ("cos_angle_width", some "0.05"), ("flag_cos_angle_hist", some "True")]

/-- Parameters of `Cloud` (cloud_manager.py:54-55). -/
def sigCloud : PySig := [
    ("cloudname", none), ("config_dict", none), ("MP_e", none), ("impact_man", none), ("dynamics", none),
    ("pyeclsaver", none), ("gas_ion_flag", none), ("resgasion", none), ("t_ion", none), ("photoem_flag", none),
    ("phemiss", none), ("rho", none)]

/-- Parameters of `residual_gas_ionization` (gas_ionization_class.py:62). -/
def sigGas : PySig := [
    ("unif_frac", none), ("P_nTorr", none), ("sigma_ion_MBarn", none), ("Temp_K", none), ("chamb", none),
    ("E_init_ion", none), ("flag_lifetime_hist", some "False")]

/-- Parameters of `photoemission` (gen_photoemission_class.py:99-101). -/
def sigPhoto : PySig := [
    ("inv_CDF_refl_photoem_file", none), ("k_pe_st", none), ("refl_frac", none), ("e_pe_sigma", none),
    ("e_pe_max", none), ("alimit", none), ("x0_refl", none), ("y0_refl", none), ("out_radius", none),
    ("chamb", none), ("resc_fac", none), ("energy_distribution", none), ("photoelectron_angle_distribution", none),
    ("beamtim", some "None"), ("flag_continuous_emission", some "False")]

/-- Parameters of `start_observing` (pyecloud_saver.py:107-129). -/
def sigSaver : PySig := [
    ("Dt_ref", none), ("MP_e", none), ("beamtim", none), ("impact_man", none), ("r_center", none),
    ("Dt_En_hist", none), ("logfile_path", none), ("progress_path", none), ("flag_detailed_MP_info", some "0"),
    ("cos_angle_width", some "0.05"), ("flag_cos_angle_hist", some "True"), ("flag_movie", some "0"),
    ("flag_sc_movie", some "0"), ("save_mp_state_time_file", some "-1"), ("flag_presence_sec_beams", some "False"),
    ("sec_beams_list", some "[]"), ("dec_fac_secbeam_prof", some "1"), ("el_density_probes", some "[]"),
    ("save_simulation_state_time_file", some "-1"), ("x_min_hist_det", some "None"), ("x_max_hist_det", some "None"),
    ("y_min_hist_det", some "None"), ("y_max_hist_det", some "None"), ("Dx_hist_det", some "None"),
    ("filen_main_outp", some "'Pyecltest'"), ("dec_fact_out", some "1"), ("stopfile", some "'stop'"),
    ("save_mat_every", some "1"), ("flag_multiple_clouds", some "False"), ("cloud_name", some "None"),
    ("flag_last_cloud", some "True"), ("checkpoint_DT", some "None"), ("checkpoint_folder", some "None"),
    ("copy_main_outp_folder", some "None"), ("copy_main_outp_DT", some "None"), ("extract_sey", some "None"),
    ("step_by_step_custom_observables", some "None"), ("pass_by_pass_custom_observables", some "None"),
    ("save_once_custom_observables", some "None"), ("flag_lifetime_hist", some "False"),
    ("Dt_lifetime_hist", some "None"), ("extract_ene_dist", some "None"), ("ene_dist_test_E_impact_eV", some "None"),
    ("Nbin_extract_ene", some "None"), ("factor_ene_dist_max", some "None"), ("flag_cross_ion", some "False"),
    ("save_only", some "None"), ("flag_electric_energy", some "False")]

/-- Parameters of `pusher_Boris` (dynamics_Boris_f2py.py:139-140). -/
def sigBoris : PySig := [
    ("Dt", none), ("B0x", none), ("B0y", none), ("B0z", none), ("B_map_file", none), ("fact_Bmap", none),
    ("N_sub_steps", some "1")]

/-- Parameters of `add_uniform_MP_distrib` (MP_system.py:441). -/
def sigUnif : PySig := [
    ("DNel", none), ("E_init", none), ("x_max", none), ("x_min", none), ("y_max", none), ("y_min", none)]

/-- Parameters of `add_uniform_ele_density` (MP_system.py:488). -/
def sigEdens : PySig := [
    ("n_ele", none), ("E_init", none), ("x_max", none), ("x_min", none), ("y_max", none), ("y_min", none)]

/-- Parameters of `add_from_file` (MP_system.py:553). -/
def sigMPfile : PySig := [
    ("filename_MPs", none)]

/-- Parameters of `space_charge_electromagnetic` (space_charge_class_electromagnetic.py:76-77). -/
def sigScEm : PySig := [
    ("chamb", none), ("Dh", none), ("gamma", none), ("Dt_sc", some "None"),
    ("PyPICmode", some "'FiniteDifferences_ShortleyWeller'"), ("sparse_solver", some "'scipy_slu'"),
    ("f_telescope", some "None"), ("target_grid", some "None"), ("N_nodes_discard", some "None"),
    ("N_min_Dh_main", some "None"), ("Dh_U_eV", some "None")]

/-- Parameters of `space_charge` (space_charge_class.py:63-64). -/
def sigSc : PySig := [
    ("chamb", none), ("Dh", none), ("Dt_sc", some "None"), ("PyPICmode", some "'FiniteDifferences_ShortleyWeller'"),
    ("sparse_solver", some "'scipy_slu'"), ("f_telescope", some "None"), ("target_grid", some "None"),
    ("N_nodes_discard", some "None"), ("N_min_Dh_main", some "None"), ("Dh_U_eV", some "None")]

/-- Parameters of `SEY_model_ECLOUD` (sec_emission_model_ECLOUD.py:90-94). -/
def sigECLOUD : PySig := [
    ("Emax", none), ("del_max", none), ("R0", none), ("E_th", some "None"), ("sigmafit", some "None"),
    ("mufit", some "None"), ("switch_no_increase_energy", some "0"), ("thresh_low_energy", some "None"),
    ("secondary_angle_distribution", some "None"), ("E0", some "150.0"), ("s", some "1.35"),
    ("flag_costheta_delta_scale", some "True"), ("flag_costheta_Emax_shift", some "True")]

/-- Parameters of `photoemission_from_file` (gen_photoemission_class.py:211-212). -/
def sigPhotoFile : PySig := [
    ("inv_CDF_all_photoem_file", none), ("chamb", none), ("resc_fac", none), ("energy_distribution", none),
    ("e_pe_sigma", none), ("e_pe_max", none), ("k_pe_st", none), ("out_radius", none),
    ("photoelectron_angle_distribution", none), ("beamtim", some "None"), ("flag_continuous_emission", some "False")]

/-- Parameters of `pusher_dipole_magnet` (dynamics_dipole.py:62). -/
def sigDipole : PySig := [
    ("Dt", none), ("B", none)]

/-- Parameters of `SEY_model_acc_low_ene` (sec_emission_model_accurate_low_ene.py:78-80). -/
def sigAccLow : PySig := [
    ("Emax", none), ("del_max", none), ("R0", none), ("E0", some "150"), ("E_th", some "None"),
    ("sigmafit", some "None"), ("mufit", some "None"), ("switch_no_increase_energy", some "0"),
    ("thresh_low_energy", some "None"), ("secondary_angle_distribution", some "None")]

/-- Parameters of `photoemission_per_segment` (gen_photoemission_class.py:265-266). -/
def sigPhotoSeg : PySig := [
    ("chamb", none), ("energy_distribution", none), ("e_pe_sigma", none), ("e_pe_max", none), ("k_pe_st", none),
    ("photoelectron_angle_distribution", none), ("beamtim", some "None"), ("flag_continuous_emission", some "False")]

/-- Parameters of `pusher_strong_B_generalized` (dynamics_strong_B_generalized.py:65-66). -/
def sigStrong : PySig := [
    ("Dt", none), ("B0x", none), ("B0y", none), ("B_map_file", none), ("fact_Bmap", none), ("B_zero_thrhld", none)]

/-- Parameters of `SEY_model_ECLOUD_non_unif` (sec_emission_model_ECLOUD_nunif.py:81-83). -/
def sigNunif : PySig := [
    ("chamb", none), ("Emax", none), ("del_max", none), ("R0", none), ("E0", some "150.0"), ("E_th", some "None"),
    ("sigmafit", some "None"), ("mufit", some "None"), ("switch_no_increase_energy", some "0"),
    ("thresh_low_energy", some "None"), ("secondary_angle_distribution", some "None")]

/-- Parameters of `pusher_Boris_multipole` (dynamics_Boris_multipole.py:60-61). -/
def sigMultipole : PySig := [
    ("Dt", none), ("N_sub_steps", some "1"), ("B_multip", some "None"), ("B_skew", some "None"),
    ("B0x", some "None"), ("B0y", some "None"), ("B0z", some "None")]

/-- Parameters of `SEY_model_ECLOUD_non_unif_charging` (sec_emission_model_ECLOUD_nunif.py:130-132). -/
def sigCharging : PySig := [
    ("chamb", none), ("Emax", none), ("del_max", none), ("R0", none), ("E0", some "150.0"), ("E_th", some "None"),
    ("sigmafit", some "None"), ("mufit", some "None"), ("switch_no_increase_energy", some "0"),
    ("thresh_low_energy", some "None"), ("secondary_angle_distribution", some "None")]

/-- Parameters of `SEY_model_cos_le` (sec_emission_model_cos_low_ener.py:80-82). -/
def sigCosLow : PySig := [
    ("Emax", none), ("del_max", none), ("R0", none), ("E0", some "30.0"), ("E_th", some "None"),
    ("sigmafit", some "None"), ("mufit", some "None"), ("switch_no_increase_energy", some "0"),
    ("thresh_low_energy", some "None"), ("secondary_angle_distribution", some "None")]

/-- Parameters of `SEY_model_flat_le` (sec_emission_model_flat_low_ener.py:81-83). -/
def sigFlatLow : PySig := [
    ("Emax", none), ("del_max", none), ("R0", none), ("E_th", some "None"), ("sigmafit", some "None"),
    ("mufit", some "None"), ("switch_no_increase_energy", some "0"), ("thresh_low_energy", some "None"),
    ("secondary_angle_distribution", some "None")]

/-- Parameters of `SEY_model_from_file` (sec_emission_model_from_file.py:65-67). -/
def sigSeyFile : PySig := [
    ("sey_file", none), ("flag_costheta_delta_scale", none), ("flag_costheta_Emax_shift", none),
    ("E_th", some "None"), ("sigmafit", some "None"), ("mufit", some "None"),
    ("switch_no_increase_energy", some "0"), ("thresh_low_energy", some "None"),
    ("secondary_angle_distribution", some "None")]

/-- Parameters of `SEY_model_furman_pivi` (sec_emission_model_furman_pivi.py:100-103). -/
def sigFP : PySig := [
    ("furman_pivi_surface", none), ("E_th", some "None"), ("sigmafit", some "None"), ("mufit", some "None"),
    ("switch_no_increase_energy", some "0"), ("thresh_low_energy", some "None"),
    ("secondary_angle_distribution", some "None"), ("flag_costheta_delta_scale", some "True"),
    ("flag_costheta_Emax_shift", some "True")]

/-- `beatim.beam_and_timing(...)` (init.py:222-228). -/
def callBeam : PyCall where
  pos := [
    .beam "flag_bunched_beam", .beam "fact_beam", .beam "coast_dens", .beam "q_part", .beam "beam_field_file",
    .main "lam_th"]
  kw := [
    ("b_spac", .beam "b_spac"), ("sigmaz", .beam "sigmaz"), ("t_offs", .beam "t_offs"),
    ("filling_pattern_file", .beam "filling_pattern_file"), ("Dt", .main "Dt"), ("t_end", .main "t_end"),
    ("beam_long_prof_file", .expr "beam_long_prof_file_path"), ("Dh_beam_field", .beam "Dh_beam_field"),
    ("f_telescope_beam", .beam "f_telescope_beam"), ("target_grid_beam", .beam "target_grid_beam"),
    ("N_nodes_discard_beam", .beam "N_nodes_discard_beam"), ("N_min_Dh_main_beam", .beam "N_min_Dh_main_beam"),
    ("chamb", .expr "chamb"), ("sigmax", .beam "sigmax"), ("sigmay", .beam "sigmay"),
    ("x_beam_pos", .beam "x_beam_pos"), ("y_beam_pos", .beam "y_beam_pos"),
    ("save_beam_field_file_as", .beam "save_beam_field_file_as"), ("Nx", .beam "Nx"), ("Ny", .beam "Ny"),
    ("nimag", .beam "nimag"), ("progress_mapgen_file", .expr "progress_mapgen_file")]

/-- `beatim.beam_and_timing(...)` (init.py:251-258). -/
def callSecBeam : PyCall where
  pos := [
    .secBeam "flag_bunched_beam", .secBeam "fact_beam", .secBeam "coast_dens", .secBeam "q_part",
    .secBeam "beam_field_file", .main "lam_th"]
  kw := [
    ("b_spac", .secBeam "b_spac"), ("sigmaz", .secBeam "sigmaz"), ("t_offs", .secBeam "t_offs"),
    ("filling_pattern_file", .secBeam "filling_pattern_file"), ("Dt", .main "Dt"), ("t_end", .main "t_end"),
    ("beam_long_prof_file", .expr "sbeam_long_prof_file_path"), ("Dh_beam_field", .secBeam "Dh_beam_field"),
    ("f_telescope_beam", .secBeam "f_telescope_beam"), ("target_grid_beam", .secBeam "target_grid_beam"),
    ("N_nodes_discard_beam", .secBeam "N_nodes_discard_beam"), ("N_min_Dh_main_beam", .secBeam "N_min_Dh_main_beam"),
    ("chamb", .expr "chamb"), ("sigmax", .secBeam "sigmax"), ("sigmay", .secBeam "sigmay"),
    ("x_beam_pos", .secBeam "x_beam_pos"), ("y_beam_pos", .secBeam "y_beam_pos"),
    ("save_beam_field_file_as", .secBeam "save_beam_field_file_as"), ("flag_secodary_beam", .expr "True"),
    ("t_primary_beam", .expr "beamtim.t"), ("Nx", .secBeam "Nx"), ("Ny", .secBeam "Ny"), ("nimag", .secBeam "nimag"),
    ("progress_mapgen_file", .expr "cc.progress_path + '_mapgen_sec_%d' % ii")]

/-- `scc_em.space_charge_electromagnetic(...)` (init.py:277-279). -/
def callScEm : PyCall where
  pos := [
    .expr "chamb", .main "Dh_sc", .beam "gamma_rel"]
  kw := [
    ("Dt_sc", .main "Dt_sc"), ("sparse_solver", .main "sparse_solver"), ("PyPICmode", .main "PyPICmode"),
    ("f_telescope", .main "f_telescope"), ("target_grid", .main "target_grid"),
    ("N_nodes_discard", .main "N_nodes_discard"), ("N_min_Dh_main", .main "N_min_Dh_main"),
    ("Dh_U_eV", .main "Dh_electric_energy")]

/-- `scc.space_charge(...)` (init.py:281-283). -/
def callSc : PyCall where
  pos := [
    .expr "chamb", .main "Dh_sc"]
  kw := [
    ("Dt_sc", .main "Dt_sc"), ("sparse_solver", .main "sparse_solver"), ("PyPICmode", .main "PyPICmode"),
    ("f_telescope", .main "f_telescope"), ("target_grid", .main "target_grid"),
    ("N_nodes_discard", .main "N_nodes_discard"), ("N_min_Dh_main", .main "N_min_Dh_main"),
    ("Dh_U_eV", .main "Dh_electric_energy")]

/-- `MPs.MP_system(...)` (init.py:305-312). -/
def callMP : PyCall where
  pos := [
    .cloud "N_mp_max", .cloud "nel_mp_ref_0", .cloud "fact_split", .cloud "fact_clean", .cloud "N_mp_regen_low",
    .cloud "N_mp_regen", .cloud "N_mp_after_regen", .cloud "Dx_hist", .cloud "Nx_regen", .cloud "Ny_regen",
    .cloud "Nvx_regen", .cloud "Nvy_regen", .cloud "Nvz_regen", .cloud "regen_hist_cut", .expr "chamb"]
  kw := [
    ("N_mp_soft_regen", .cloud "N_mp_soft_regen"), ("N_mp_after_soft_regen", .cloud "N_mp_after_soft_regen"),
    ("N_mp_async_regen", .cloud "N_mp_async_regen"), ("N_mp_after_async_regen", .cloud "N_mp_after_async_regen"),
    ("charge", .cloud "cloud_charge"), ("mass", .cloud "cloud_mass"),
    ("flag_lifetime_hist", .cloud "flag_lifetime_hist"), ("name", .cloud "cloud_name")]

/-- `SEY_model_ECLOUD(...)` (init.py:332-338); `extra` is `**kwargs_secem` (init.py:319-327). -/
def callECLOUD (extra : List (String × ArgSrc)) : PyCall where
  pos := [
    .cloud "Emax", .cloud "del_max", .cloud "R0"]
  kw := [
    ("E_th", .cloud "E_th"), ("sigmafit", .cloud "sigmafit"), ("mufit", .cloud "mufit"),
    ("switch_no_increase_energy", .cloud "switch_no_increase_energy"),
    ("thresh_low_energy", .cloud "thresh_low_energy"),
    ("secondary_angle_distribution", .cloud "secondary_angle_distribution")] ++ extra

/-- `SEY_model_acc_low_ene(...)` (init.py:340-345); `extra` is `**kwargs_secem` (init.py:319-327). -/
def callAccLow (extra : List (String × ArgSrc)) : PyCall where
  pos := [
    .cloud "Emax", .cloud "del_max", .cloud "R0"]
  kw := [
    ("E_th", .cloud "E_th"), ("sigmafit", .cloud "sigmafit"), ("mufit", .cloud "mufit"),
    ("switch_no_increase_energy", .cloud "switch_no_increase_energy"),
    ("thresh_low_energy", .cloud "thresh_low_energy"),
    ("secondary_angle_distribution", .cloud "secondary_angle_distribution")] ++ extra

/-- `SEY_model_ECLOUD_non_unif(...)` (init.py:347-352); `extra` is `**kwargs_secem` (init.py:319-327). -/
def callNunif (extra : List (String × ArgSrc)) : PyCall where
  pos := [
    .expr "chamb", .cloud "Emax", .cloud "del_max", .cloud "R0"]
  kw := [
    ("E_th", .cloud "E_th"), ("sigmafit", .cloud "sigmafit"), ("mufit", .cloud "mufit"),
    ("switch_no_increase_energy", .cloud "switch_no_increase_energy"),
    ("thresh_low_energy", .cloud "thresh_low_energy"),
    ("secondary_angle_distribution", .cloud "secondary_angle_distribution")] ++ extra

/-- `SEY_model_ECLOUD_non_unif_charging(...)` (init.py:354-359); `extra` is `**kwargs_secem` (init.py:319-327). -/
def callCharging (extra : List (String × ArgSrc)) : PyCall where
  pos := [
    .expr "chamb", .cloud "Emax", .cloud "del_max", .cloud "R0"]
  kw := [
    ("E_th", .cloud "E_th"), ("sigmafit", .cloud "sigmafit"), ("mufit", .cloud "mufit"),
    ("switch_no_increase_energy", .cloud "switch_no_increase_energy"),
    ("thresh_low_energy", .cloud "thresh_low_energy"),
    ("secondary_angle_distribution", .cloud "secondary_angle_distribution")] ++ extra

/-- `SEY_model_cos_le(...)` (init.py:361-366); `extra` is `**kwargs_secem` (init.py:319-327). -/
def callCosLow (extra : List (String × ArgSrc)) : PyCall where
  pos := [
    .cloud "Emax", .cloud "del_max", .cloud "R0"]
  kw := [
    ("E_th", .cloud "E_th"), ("sigmafit", .cloud "sigmafit"), ("mufit", .cloud "mufit"),
    ("switch_no_increase_energy", .cloud "switch_no_increase_energy"),
    ("thresh_low_energy", .cloud "thresh_low_energy"),
    ("secondary_angle_distribution", .cloud "secondary_angle_distribution")] ++ extra

/-- `SEY_model_flat_le(...)` (init.py:368-373); `extra` is `**kwargs_secem` (init.py:319-327). -/
def callFlatLow (extra : List (String × ArgSrc)) : PyCall where
  pos := [
    .cloud "Emax", .cloud "del_max", .cloud "R0"]
  kw := [
    ("E_th", .cloud "E_th"), ("sigmafit", .cloud "sigmafit"), ("mufit", .cloud "mufit"),
    ("switch_no_increase_energy", .cloud "switch_no_increase_energy"),
    ("thresh_low_energy", .cloud "thresh_low_energy"),
    ("secondary_angle_distribution", .cloud "secondary_angle_distribution")] ++ extra

/-- `SEY_model_from_file(...)` (init.py:383-388); `extra` is `**kwargs_secem` (init.py:319-327). -/
def callSeyFile (extra : List (String × ArgSrc)) : PyCall where
  pos := [
    .expr "sey_file_path"]
  kw := [
    ("E_th", .cloud "E_th"), ("sigmafit", .cloud "sigmafit"), ("mufit", .cloud "mufit"),
    ("switch_no_increase_energy", .cloud "switch_no_increase_energy"),
    ("thresh_low_energy", .cloud "thresh_low_energy"),
    ("secondary_angle_distribution", .cloud "secondary_angle_distribution")] ++ extra

/-- `SEY_model_furman_pivi(...)` (init.py:392-397); `extra` is `**kwargs_secem` (init.py:319-327). -/
def callFP (extra : List (String × ArgSrc)) : PyCall where
  pos := [
]
  kw := [
    ("E_th", .cloud "E_th"), ("sigmafit", .cloud "sigmafit"), ("mufit", .cloud "mufit"),
    ("switch_no_increase_energy", .cloud "switch_no_increase_energy"),
    ("thresh_low_energy", .cloud "thresh_low_energy"),
    ("secondary_angle_distribution", .cloud "secondary_angle_distribution"),
    ("furman_pivi_surface", .cloud "furman_pivi_surface")] ++ extra

/-- `imc.impact_management(...)` (init.py:414-418). -/
def callImpact : PyCall where
  pos := [
    .expr "chamb", .expr "sey_mod", .cloud "Dx_hist", .cloud "scrub_en_th", .main "Nbin_En_hist",
    .main "En_hist_max", .main "Nbin_lifetime_hist", .main "lifetime_hist_max", .main "flag_lifetime_hist"]
  kw := [
    ("flag_seg", .expr "flag_seg"), ("flag_En_hist_seg", .cloud "flag_En_hist_seg"),
    ("cos_angle_width", .main "cos_angle_width")]

/-- `gic.residual_gas_ionization(...)` (init.py:422-423). -/
def callGas : PyCall where
  pos := [
    .cloud "unif_frac", .cloud "P_nTorr", .cloud "sigma_ion_MBarn", .cloud "Temp_K", .expr "chamb",
    .cloud "E_init_ion", .cloud "flag_lifetime_hist"]
  kw := [
]

/-- `gpc.photoemission(...)` (init.py:428-430). -/
def callPhoto : PyCall where
  pos := [
    .cloud "inv_CDF_refl_photoem_file", .cloud "k_pe_st", .cloud "refl_frac", .cloud "e_pe_sigma", .cloud "e_pe_max",
    .cloud "alimit", .cloud "x0_refl", .cloud "y0_refl", .cloud "out_radius", .expr "chamb", .cloud "phem_resc_fac",
    .cloud "energy_distribution", .cloud "photoelectron_angle_distribution", .expr "beamtim",
    .cloud "flag_continuous_emission"]
  kw := [
]

/-- `gpc.photoemission_from_file(...)` (init.py:432-434). -/
def callPhotoFile : PyCall where
  pos := [
    .cloud "inv_CDF_all_photoem_file", .expr "chamb", .cloud "phem_resc_fac", .cloud "energy_distribution",
    .cloud "e_pe_sigma", .cloud "e_pe_max", .cloud "k_pe_st", .cloud "out_radius",
    .cloud "photoelectron_angle_distribution", .expr "beamtim", .cloud "flag_continuous_emission"]
  kw := [
]

/-- `gpc.photoemission_per_segment(...)` (init.py:447-448). -/
def callPhotoSeg : PyCall where
  pos := [
    .expr "chamb_phemiss", .cloud "energy_distribution", .cloud "e_pe_sigma", .cloud "e_pe_max", .cloud "k_pe_st",
    .cloud "photoelectron_angle_distribution", .expr "beamtim", .cloud "flag_continuous_emission"]
  kw := [
]

/-- `pyeclsaver.start_observing(...)` (init.py:455-480). -/
def callSaver : PyCall where
  pos := [
    .main "Dt", .expr "MP_e", .expr "beamtim", .expr "impact_man", .cloud "r_center", .cloud "Dt_En_hist",
    .cloud "logfile_path", .cloud "progress_path"]
  kw := [
    ("flag_detailed_MP_info", .cloud "flag_detailed_MP_info"), ("flag_movie", .cloud "flag_movie"),
    ("flag_sc_movie", .cloud "flag_sc_movie"), ("save_mp_state_time_file", .cloud "save_mp_state_time_file"),
    ("flag_presence_sec_beams", .expr "flag_presence_sec_beams"), ("sec_beams_list", .expr "sec_beams_list"),
    ("dec_fac_secbeam_prof", .cloud "dec_fac_secbeam_prof"), ("el_density_probes", .cloud "el_density_probes"),
    ("save_simulation_state_time_file", .cloud "save_simulation_state_time_file"),
    ("x_min_hist_det", .cloud "x_min_hist_det"), ("x_max_hist_det", .cloud "x_max_hist_det"),
    ("y_min_hist_det", .cloud "y_min_hist_det"), ("y_max_hist_det", .cloud "y_max_hist_det"),
    ("Dx_hist_det", .cloud "Dx_hist_det"), ("dec_fact_out", .main "dec_fact_out"), ("stopfile", .main "stopfile"),
    ("save_mat_every", .main "save_mat_every"), ("filen_main_outp", .cloud "filen_main_outp"),
    ("flag_cos_angle_hist", .cloud "flag_cos_angle_hist"), ("cos_angle_width", .cloud "cos_angle_width"),
    ("flag_multiple_clouds", .expr "flag_multiple_clouds"), ("cloud_name", .cloud "cloud_name"),
    ("flag_last_cloud", .expr "flag_last_cloud"), ("checkpoint_DT", .main "checkpoint_DT"),
    ("checkpoint_folder", .main "checkpoint_folder"), ("copy_main_outp_folder", .main "copy_main_outp_folder"),
    ("copy_main_outp_DT", .main "copy_main_outp_DT"), ("extract_sey", .main "extract_sey"),
    ("step_by_step_custom_observables", .main "step_by_step_custom_observables"),
    ("pass_by_pass_custom_observables", .main "pass_by_pass_custom_observables"),
    ("save_once_custom_observables", .main "save_once_custom_observables"),
    ("flag_lifetime_hist", .cloud "flag_lifetime_hist"), ("Dt_lifetime_hist", .cloud "Dt_lifetime_hist"),
    ("extract_ene_dist", .main "extract_ene_dist"), ("ene_dist_test_E_impact_eV", .main "ene_dist_test_E_impact_eV"),
    ("Nbin_extract_ene", .main "Nbin_extract_ene"), ("factor_ene_dist_max", .main "factor_ene_dist_max"),
    ("flag_cross_ion", .expr "flag_cross_ion"), ("save_only", .cloud "save_only"),
    ("flag_electric_energy", .expr "cc.Dh_electric_energy is not None")]

/-- `dynB.pusher_Boris(...)` (init.py:491-492). -/
def callBoris : PyCall where
  pos := [
    .main "Dt", .expr "temp_B0x", .expr "temp_B0y", .expr "temp_B0z", .main "B_map_file", .main "fact_Bmap"]
  kw := [
    ("N_sub_steps", .cloud "N_sub_steps")]

/-- `dyndip.pusher_dipole_magnet(...)` (init.py:503). -/
def callDipole : PyCall where
  pos := [
    .main "Dt", .expr "B"]
  kw := [
]

/-- `dyngen.pusher_strong_B_generalized(...)` (init.py:510-511). -/
def callStrong : PyCall where
  pos := [
    .main "Dt", .main "B0x", .main "B0y", .main "B_map_file", .main "fact_Bmap", .main "B_zero_thrhld"]
  kw := [
]

/-- `dynmul.pusher_Boris_multipole(...)` (init.py:513-514). -/
def callMultipole : PyCall where
  pos := [
]
  kw := [
    ("Dt", .main "Dt"), ("N_sub_steps", .main "N_sub_steps"), ("B_multip", .main "B_multip"),
    ("B_skew", .main "B_skew"), ("B0x", .main "B0x"), ("B0y", .main "B0y"), ("B0z", .main "B0z")]

/-- `MP_e.add_uniform_MP_distrib(...)` (init.py:521-523). -/
def callUnif : PyCall where
  pos := [
    .cloud "Nel_init_unif", .cloud "E_init_unif", .cloud "x_max_init_unif", .cloud "x_min_init_unif",
    .cloud "y_max_init_unif", .cloud "y_min_init_unif"]
  kw := [
]

/-- `MP_e.add_uniform_ele_density(...)` (init.py:527-529). -/
def callEdens : PyCall where
  pos := [
]
  kw := [
    ("n_ele", .cloud "init_unif_edens"), ("E_init", .cloud "E_init_unif_edens"),
    ("x_max", .cloud "x_max_init_unif_edens"), ("x_min", .cloud "x_min_init_unif_edens"),
    ("y_max", .cloud "y_max_init_unif_edens"), ("y_min", .cloud "y_min_init_unif_edens")]

/-- `MP_e.add_from_file(...)` (init.py:533). -/
def callMPfile : PyCall where
  pos := [
    .cloud "filename_init_MP_state"]
  kw := [
]

/-- `cman.Cloud(...)` (init.py:541-542). -/
def callCloud : PyCall where
  pos := [
    .cloud "cloud_name", .expr "thiscloud", .expr "MP_e", .expr "impact_man", .expr "dynamics", .expr "pyeclsaver",
    .cloud "gas_ion_flag", .expr "resgasion", .cloud "t_ion", .cloud "photoem_flag", .expr "phemiss", .expr "rho"]
  kw := [
]

/-- `super().__init__(...)` of the electromagnetic space charge (space_charge_class_electromagnetic.py:79-80), called with its
own parameters. -/
def callScSuper : PyCall where
  pos := [.expr "chamb", .expr "Dh", .expr "Dt_sc", .expr "PyPICmode", .expr "sparse_solver", .expr "f_telescope",
    .expr "target_grid", .expr "N_nodes_discard", .expr "N_min_Dh_main", .expr "Dh_U_eV"]
  kw := []

/-- `kwargs_secem` (init.py:319-327, 330-331, 375-376, 390-391): `E0` when it is given, `s` when `s_param` is given (only allowed for the
ECLOUD model), and the two cosine flags for the models that take them. -/
def secemExtra (e0 s flags : Bool) : List (String × ArgSrc) :=
  (if e0 then [("E0", .cloud "E0")] else []) ++ (if s then [("s", .cloud "s_param")] else []) ++
    (if flags then [("flag_costheta_delta_scale", .cloud "flag_costheta_delta_scale"),
      ("flag_costheta_Emax_shift", .cloud "flag_costheta_Emax_shift")] else [])

end PyECLOUD
