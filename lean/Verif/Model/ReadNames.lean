import Verif.Model.ParamTables

/-!
# Which parameters the set-up of a simulation reads

The attributes of the configuration objects named in `init.py` and `parse_beam_file.py`, transcribed in order of first use. Whether
a given run reaches the line is not modelled: a name is listed if some branch reads it.
-/

namespace PyECLOUD

/-- Attributes of the main configuration `cc` read by `read_input_files_and_init_components` (init.py:149-563). -/
def mainReads : List String := [
  "secondary_beams_file_list", "beam_parameters_file", "betafx", "Dx", "betafy", "Dy", "logfile_path",
  "additional_clouds_file_list", "flag_verbose_file", "flag_verbose_stdout", "flag_assume_convex", "chamb_type", "x_aper",
  "y_aper", "filename_chm", "progress_path", "lam_th", "Dt", "t_end", "save_mat_every", "sparse_solver", "flag_em_tracking",
  "Dh_sc", "Dt_sc", "PyPICmode", "f_telescope", "target_grid", "N_nodes_discard", "N_min_Dh_main", "Dh_electric_energy",
  "cross_ion_definitions", "flag_lifetime_hist", "Nbin_lifetime_hist", "lifetime_hist_max", "Dt_lifetime_hist",
  "Nbin_En_hist", "En_hist_max", "cos_angle_width", "dec_fact_out", "stopfile", "checkpoint_DT", "checkpoint_folder",
  "copy_main_outp_folder", "copy_main_outp_DT", "extract_sey", "step_by_step_custom_observables",
  "pass_by_pass_custom_observables", "save_once_custom_observables", "extract_ene_dist", "ene_dist_test_E_impact_eV",
  "Nbin_extract_ene", "factor_ene_dist_max", "track_method", "B0x", "B0y", "B0z", "B_map_file", "fact_Bmap", "B",
  "bm_totlen", "B_zero_thrhld", "N_sub_steps", "B_multip", "B_skew", "t_sc_ON", "flag_reinterp_fields_at_substeps"]

/-- Attributes of the configuration `thiscloud` of one cloud read by the loop over the clouds (init.py:293-542). -/
def cloudReads : List String := [
  "cloud_name", "logfile_path", "N_mp_max", "nel_mp_ref_0", "fact_split", "fact_clean", "N_mp_regen_low", "N_mp_regen",
  "N_mp_after_regen", "Dx_hist", "Nx_regen", "Ny_regen", "Nvx_regen", "Nvy_regen", "Nvz_regen", "regen_hist_cut",
  "N_mp_soft_regen", "N_mp_after_soft_regen", "N_mp_async_regen", "N_mp_after_async_regen", "cloud_charge", "cloud_mass",
  "flag_lifetime_hist", "switch_model", "E0", "s_param", "flag_costheta_delta_scale", "flag_costheta_Emax_shift", "Emax",
  "del_max", "R0", "E_th", "sigmafit", "mufit", "switch_no_increase_energy", "thresh_low_energy",
  "secondary_angle_distribution", "sey_file", "furman_pivi_surface", "flag_hist_impact_seg", "scrub_en_th",
  "flag_En_hist_seg", "gas_ion_flag", "unif_frac", "P_nTorr", "sigma_ion_MBarn", "Temp_K", "E_init_ion", "photoem_flag",
  "inv_CDF_refl_photoem_file", "k_pe_st", "refl_frac", "e_pe_sigma", "e_pe_max", "alimit", "x0_refl", "y0_refl",
  "out_radius", "phem_resc_fac", "energy_distribution", "photoelectron_angle_distribution", "flag_continuous_emission",
  "inv_CDF_all_photoem_file", "filename_chm_photoem", "r_center", "Dt_En_hist", "progress_path", "flag_detailed_MP_info",
  "flag_movie", "flag_sc_movie", "save_mp_state_time_file", "dec_fac_secbeam_prof", "el_density_probes",
  "save_simulation_state_time_file", "x_min_hist_det", "x_max_hist_det", "y_min_hist_det", "y_max_hist_det", "Dx_hist_det",
  "filen_main_outp", "flag_cos_angle_hist", "cos_angle_width", "Dt_lifetime_hist", "save_only", "N_sub_steps",
  "init_unif_flag", "Nel_init_unif", "E_init_unif", "x_max_init_unif", "x_min_init_unif", "y_max_init_unif",
  "y_min_init_unif", "init_unif_edens_flag", "init_unif_edens", "E_init_unif_edens", "x_max_init_unif_edens",
  "x_min_init_unif_edens", "y_max_init_unif_edens", "y_min_init_unif_edens", "filename_init_MP_state", "t_ion"]

/-- Attributes of the configuration of one beam read by `beam_descr_from_fil` (parse_beam_file.py:27-97). -/
def beamReads : List String := [
  "Dx", "Dy", "betafx", "betafy", "energy_eV", "m0_part", "sigmax", "nemittx", "Dp_p", "sigmay", "nemitty", "x_beam_pos",
  "y_beam_pos", "q_part", "beam_field_file", "b_spac", "fact_beam", "coast_dens", "flag_bunched_beam", "sigmaz", "t_offs",
  "filling_pattern_file", "beam_long_prof_file", "Dh_beam_field", "f_telescope_beam", "target_grid_beam",
  "N_nodes_discard_beam", "N_min_Dh_main_beam", "save_beam_field_file_as", "Nx", "Ny", "nimag"]

/-- What a set-up that reads the names `names` gets to see of a configuration: `none` is an `AttributeError`. -/
def viewOf {V : Type} (names : List String) (c : Mod V) : List (Option (ModVal V)) := names.map (attr c)

end PyECLOUD
