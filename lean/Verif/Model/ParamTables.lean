import Verif.Model.Config

/-!
# The parameter tables of `default_input_parameters.py`

Transcribed from the source; a default value is represented by the text of its expression.
-/

namespace PyECLOUD

/-- `simulation_parameters` (default_input_parameters.py:8-134). -/
def simTbl : ParamTbl String where
  mandatory := [
    "machine_param_file", "secondary_emission_parameters_file", "beam_parameters_file", "logfile_path", "progress_path",
    "Dt", "t_end", "lam_th", "N_mp_max", "N_mp_regen", "N_mp_regen_low", "t_ON_regen_low", "N_mp_after_regen",
    "fact_split", "fact_clean", "nel_mp_ref_0", "Nx_regen", "Ny_regen", "Nvx_regen", "Nvy_regen", "Nvz_regen",
    "regen_hist_cut", "Dt_sc", "Dh_sc", "t_sc_ON", "Dx_hist", "r_center", "Dt_En_hist", "Nbin_En_hist", "En_hist_max"]
  optional := [
    ("secondary_beams_file_list", "()"), ("additional_clouds_file_list", "()"), ("cloud_name", "None"),
    ("cloud_mass", "m_e"), ("cloud_charge", "-qe"), ("N_mp_soft_regen", "None"), ("N_mp_after_soft_regen", "None"),
    ("N_mp_async_regen", "None"), ("N_mp_after_async_regen", "None"), ("stopfile", "'stop'"),
    ("filen_main_outp", "'Pyecltest.mat'"), ("save_only", "None"), ("flag_movie", "0"), ("flag_sc_movie", "0"),
    ("flag_cos_angle_hist", "True"), ("cos_angle_width", "0.05"), ("save_mp_state_time_file", "-1"),
    ("flag_detailed_MP_info", "0"), ("flag_hist_impact_seg", "1"), ("flag_En_hist_seg", "False"),
    ("flag_verbose_file", "False"), ("flag_verbose_stdout", "False"), ("dec_fac_secbeam_prof", "1"),
    ("el_density_probes", "()"), ("save_simulation_state_time_file", "-1"), ("checkpoint_DT", "None"),
    ("checkpoint_folder", "None"), ("copy_main_outp_DT", "None"), ("copy_main_outp_folder", "None"),
    ("x_min_hist_det", "None"), ("y_min_hist_det", "None"), ("x_max_hist_det", "None"), ("y_max_hist_det", "None"),
    ("Dx_hist_det", "None"), ("flag_lifetime_hist", "False"), ("Nbin_lifetime_hist", "None"),
    ("lifetime_hist_max", "None"), ("Dt_lifetime_hist", "None"), ("Dh_electric_energy", "None"),
    ("sparse_solver", "'scipy_slu'"), ("PyPICmode", "'FiniteDifferences_ShortleyWeller'"),
    ("flag_reinterp_fields_at_substeps", "False"), ("f_telescope", "None"), ("target_grid", "None"),
    ("N_nodes_discard", "None"), ("N_min_Dh_main", "None"), ("dec_fact_out", "1"), ("save_mat_every", "1"),
    ("t_ion", "-1"), ("extract_sey", "True"), ("step_by_step_custom_observables", "None"),
    ("pass_by_pass_custom_observables", "None"), ("save_once_custom_observables", "None"), ("extract_ene_dist", "False"),
    ("ene_dist_test_E_impact_eV", "None"), ("Nbin_extract_ene", "None"), ("factor_ene_dist_max", "None"),
    ("flag_em_tracking", "False"), ("cross_ion_definitions", "None")]
  super := ["pi"]

/-- `machine_parameters` (default_input_parameters.py:135-213). -/
def machTbl : ParamTbl String where
  mandatory := [
    ]
  optional := [
    ("chamb_type", "'ellip'"), ("x_aper", "None"), ("y_aper", "None"), ("filename_chm", "None"),
    ("filename_chm_photoem", "None"), ("track_method", "'StrongBdip'"), ("B", "0.0"), ("bm_totlen", "-1"),
    ("B_map_file", "None"), ("fact_Bmap", "1.0"), ("B0x", "None"), ("B0y", "None"), ("B0z", "None"),
    ("B_zero_thrhld", "None"), ("N_sub_steps", "1"), ("B_multip", "[]"), ("B_skew", "None"), ("betafx", "None"),
    ("betafy", "None"), ("Dx", "0.0"), ("Dy", "0.0"), ("gas_ion_flag", "0"), ("P_nTorr", "-1"),
    ("sigma_ion_MBarn", "-1"), ("Temp_K", "-1"), ("unif_frac", "-1"), ("E_init_ion", "-1"), ("photoem_flag", "0"),
    ("inv_CDF_refl_photoem_file", "-1"), ("inv_CDF_all_photoem_file", "-1"), ("k_pe_st", "-1"), ("refl_frac", "-1"),
    ("alimit", "-1"), ("e_pe_sigma", "-1"), ("e_pe_max", "-1"), ("x0_refl", "-1"), ("y0_refl", "-1"),
    ("out_radius", "-1"), ("phem_resc_fac", "0.9999"), ("photoelectron_angle_distribution", "'undefined'"),
    ("energy_distribution", "'gaussian'"), ("flag_continuous_emission", "False"), ("init_unif_flag", "0"),
    ("Nel_init_unif", "None"), ("E_init_unif", "0"), ("x_max_init_unif", "None"), ("x_min_init_unif", "None"),
    ("y_max_init_unif", "None"), ("y_min_init_unif", "None"), ("filename_init_MP_state", "None"),
    ("init_unif_edens_flag", "0"), ("init_unif_edens", "None"), ("E_init_unif_edens", "0.0"),
    ("x_max_init_unif_edens", "None"), ("x_min_init_unif_edens", "None"), ("y_max_init_unif_edens", "None"),
    ("y_min_init_unif_edens", "None"), ("flag_assume_convex", "True")]
  super := ["pi"]

/-- `beam_beam` (default_input_parameters.py:214-275). -/
def beamTbl : ParamTbl String where
  mandatory := [
    "energy_eV", "beam_field_file", "b_spac", "fact_beam", "flag_bunched_beam", "t_offs", "filling_pattern_file"]
  optional := [
    ("q_part", "qe"), ("m0_part", "m_p"), ("Dp_p", "0.0"), ("nemittx", "None"), ("nemitty", "None"),
    ("x_beam_pos", "0.0"), ("y_beam_pos", "0.0"), ("sigmax", "-1"), ("sigmay", "-1"),
    ("save_beam_field_file_as", "None"), ("Dh_beam_field", "None"), ("Nx", "None"), ("Ny", "None"), ("nimag", "None"),
    ("f_telescope_beam", "None"), ("target_grid_beam", "None"), ("N_nodes_discard_beam", "None"),
    ("N_min_Dh_main_beam", "None"), ("sigmaz", "-1"), ("beam_long_prof_file", "None"), ("Dx", "None"), ("Dy", "None"),
    ("betafx", "None"), ("betafy", "None"), ("coast_dens", "0.0")]
  super := ["pi"]

/-- `secondary_emission_parameters` (default_input_parameters.py:276-313). -/
def secTbl : ParamTbl String where
  mandatory := [
    "E_th", "sigmafit", "mufit", "scrub_en_th"]
  optional := [
    ("Emax", "None"), ("del_max", "None"), ("R0", "None"), ("E0", "None"), ("s_param", "None"), ("switch_model", "0"),
    ("secondary_angle_distribution", "'undefined'"), ("switch_no_increase_energy", "0"), ("thresh_low_energy", "-1"),
    ("sey_file", "None"), ("flag_costheta_Emax_shift", "True"), ("flag_costheta_delta_scale", "True"),
    ("furman_pivi_surface", "None")]
  super := ["pi"]

/-- `additional_cloud_parameters` (default_input_parameters.py:318-464). -/
def cloudTbl : ParamTbl String where
  mandatory := [
    "cloud_mass", "cloud_charge", "gas_ion_flag", "photoem_flag", "init_unif_flag", "init_unif_edens_flag", "switch_model"]
  optional := [
    ("save_only", "()"), ("N_mp_max", "()"), ("N_mp_regen", "()"), ("N_mp_regen_low", "()"), ("t_ON_regen_low", "()"),
    ("N_mp_after_regen", "()"), ("fact_split", "()"), ("fact_clean", "()"), ("nel_mp_ref_0", "()"), ("Nx_regen", "()"),
    ("Ny_regen", "()"), ("Nvx_regen", "()"), ("Nvy_regen", "()"), ("Nvz_regen", "()"), ("regen_hist_cut", "()"),
    ("N_mp_soft_regen", "()"), ("N_mp_after_soft_regen", "()"), ("N_mp_async_regen", "()"),
    ("N_mp_after_async_regen", "()"), ("N_sub_steps", "()"), ("P_nTorr", "()"), ("sigma_ion_MBarn", "()"),
    ("Temp_K", "()"), ("unif_frac", "()"), ("E_init_ion", "()"), ("t_ion", "()"), ("inv_CDF_refl_photoem_file", "()"),
    ("inv_CDF_all_photoem_file", "()"), ("k_pe_st", "()"), ("refl_frac", "()"), ("alimit", "()"), ("e_pe_sigma", "()"),
    ("e_pe_max", "()"), ("x0_refl", "()"), ("y0_refl", "()"), ("out_radius", "()"), ("phem_resc_fac", "()"),
    ("photoelectron_angle_distribution", "()"), ("energy_distribution", "()"), ("flag_continuous_emission", "()"),
    ("filename_chm_photoem", "()"), ("Nel_init_unif", "()"), ("E_init_unif", "()"), ("x_max_init_unif", "()"),
    ("x_min_init_unif", "()"), ("y_max_init_unif", "()"), ("y_min_init_unif", "()"), ("filename_init_MP_state", "()"),
    ("init_unif_edens", "()"), ("E_init_unif_edens", "()"), ("x_max_init_unif_edens", "()"),
    ("x_min_init_unif_edens", "()"), ("y_max_init_unif_edens", "()"), ("y_min_init_unif_edens", "()"), ("E_th", "()"),
    ("sigmafit", "()"), ("mufit", "()"), ("Emax", "()"), ("s_param", "()"), ("del_max", "()"), ("R0", "()"),
    ("E0", "()"), ("switch_no_increase_energy", "()"), ("thresh_low_energy", "()"), ("scrub_en_th", "()"),
    ("secondary_angle_distribution", "()"), ("sey_file", "()"), ("flag_costheta_Emax_shift", "()"),
    ("flag_costheta_delta_scale", "()"), ("furman_pivi_surface", "()"), ("Dx_hist", "()"), ("r_center", "()"),
    ("Dt_En_hist", "()"), ("Nbin_En_hist", "()"), ("En_hist_max", "()"), ("flag_lifetime_hist", "()"),
    ("Nbin_lifetime_hist", "()"), ("lifetime_hist_max", "()"), ("Dt_lifetime_hist", "()"), ("flag_movie", "()"),
    ("flag_sc_movie", "()"), ("flag_cos_angle_hist", "()"), ("cos_angle_width", "()"), ("save_mp_state_time_file", "()"),
    ("flag_detailed_MP_info", "()"), ("flag_hist_impact_seg", "()"), ("flag_En_hist_seg", "()"),
    ("flag_verbose_file", "()"), ("flag_verbose_stdout", "()"), ("dec_fac_secbeam_prof", "()"),
    ("el_density_probes", "()"), ("save_simulation_state_time_file", "()"), ("x_min_hist_det", "()"),
    ("y_min_hist_det", "()"), ("x_max_hist_det", "()"), ("y_max_hist_det", "()"), ("Dx_hist_det", "()"),
    ("logfile_path", "()"), ("progress_path", "()")]
  super := ["pi"]

/-- `combined_simulations_secondaryEmission_machine_parameters` (default_input_parameters.py:314-317, 467-469): the updates of a set
and of a dictionary, whose keys are all different (`combTbl_ok`). -/
def combTbl : ParamTbl String where
  mandatory := secTbl.mandatory ++ machTbl.mandatory ++ simTbl.mandatory
  optional := secTbl.optional ++ machTbl.optional ++ simTbl.optional
  super := ["pi"]

end PyECLOUD
