import Verif.Model.InitCalls
import Verif.Model.ParamTables

/-!
# Which setting of a cloud governs which parameter of its components

The components built for one cloud, the call that builds each of them (Model/InitCalls), and the table of the settings: the
parameter of a component with the name (or, for a few, the meaning) of a setting allowed in a cloud file is governed
by that setting. The table follows from the names of the parameters and settings only, not from the calls.
-/

namespace PyECLOUD

/-- The components of one cloud. -/
inductive Part where
  | mp
  | impact
  | gas
  | photo
  | photoFile
  | photoSeg
  | saver
  | boris
  | multipole
  | unif
  | edens
  | mPfile
  | cloud
  | ecloud
  | accLow
  | nunif
  | charging
  | cosLow
  | flatLow
  | seyFile
  | fp
  deriving DecidableEq, Repr

/-- its constructor (or method) -/
def Part.sig : Part → PySig
  | .mp => sigMP
  | .impact => sigImpact
  | .gas => sigGas
  | .photo => sigPhoto
  | .photoFile => sigPhotoFile
  | .photoSeg => sigPhotoSeg
  | .saver => sigSaver
  | .boris => sigBoris
  | .multipole => sigMultipole
  | .unif => sigUnif
  | .edens => sigEdens
  | .mPfile => sigMPfile
  | .cloud => sigCloud
  | .ecloud => sigECLOUD
  | .accLow => sigAccLow
  | .nunif => sigNunif
  | .charging => sigCharging
  | .cosLow => sigCosLow
  | .flatLow => sigFlatLow
  | .seyFile => sigSeyFile
  | .fp => sigFP

/-- the call in init.py; `e0`, `s`: whether `E0` and `s_param` are set -/
def Part.call (e0 s : Bool) : Part → PyCall
  | .mp => callMP
  | .impact => callImpact
  | .gas => callGas
  | .photo => callPhoto
  | .photoFile => callPhotoFile
  | .photoSeg => callPhotoSeg
  | .saver => callSaver
  | .boris => callBoris
  | .multipole => callMultipole
  | .unif => callUnif
  | .edens => callEdens
  | .mPfile => callMPfile
  | .cloud => callCloud
  | .ecloud => callECLOUD (secemExtra e0 s true)
  | .accLow => callAccLow (secemExtra e0 false false)
  | .nunif => callNunif (secemExtra e0 false false)
  | .charging => callCharging (secemExtra e0 false false)
  | .cosLow => callCosLow (secemExtra e0 false false)
  | .flatLow => callFlatLow (secemExtra e0 false false)
  | .seyFile => callSeyFile (secemExtra e0 false true)
  | .fp => callFP (secemExtra e0 false true)

/-- the value parameter `param` of the component receives -/
def Part.gets {V : Type} (p : Part) (e0 s : Bool) (st : Settings V) (param : String) : Except PyErr (Option V) :=
  received st p.sig (p.call e0 s) param

/-- component, parameter, setting of the cloud that governs it -/
def governed : List (Part × String × String) := [
    (.mp, "N_mp_max", "N_mp_max"), (.mp, "nel_mp_ref_0", "nel_mp_ref_0"), (.mp, "fact_split", "fact_split"),
    (.mp, "fact_clean", "fact_clean"), (.mp, "N_mp_regen_low", "N_mp_regen_low"), (.mp, "N_mp_regen", "N_mp_regen"),
    (.mp, "N_mp_after_regen", "N_mp_after_regen"), (.mp, "Dx_hist_reg", "Dx_hist"), (.mp, "Nx_reg", "Nx_regen"),
    (.mp, "Ny_reg", "Ny_regen"), (.mp, "Nvx_reg", "Nvx_regen"), (.mp, "Nvy_reg", "Nvy_regen"),
    (.mp, "Nvz_reg", "Nvz_regen"), (.mp, "regen_hist_cut", "regen_hist_cut"),
    (.mp, "N_mp_soft_regen", "N_mp_soft_regen"), (.mp, "N_mp_after_soft_regen", "N_mp_after_soft_regen"),
    (.mp, "N_mp_async_regen", "N_mp_async_regen"), (.mp, "N_mp_after_async_regen", "N_mp_after_async_regen"),
    (.mp, "charge", "cloud_charge"), (.mp, "mass", "cloud_mass"), (.mp, "flag_lifetime_hist", "flag_lifetime_hist"),
    (.impact, "Dx_hist", "Dx_hist"), (.impact, "scrub_en_th", "scrub_en_th"),
    (.impact, "Nbin_En_hist", "Nbin_En_hist"), (.impact, "En_hist_max", "En_hist_max"),
    (.impact, "Nbin_lifetime_hist", "Nbin_lifetime_hist"), (.impact, "lifetime_hist_max", "lifetime_hist_max"),
    (.impact, "flag_lifetime_hist", "flag_lifetime_hist"), (.impact, "flag_En_hist_seg", "flag_En_hist_seg"),
    (.impact, "cos_angle_width", "cos_angle_width"), (.impact, "flag_cos_angle_hist", "flag_cos_angle_hist"),
    (.gas, "unif_frac", "unif_frac"), (.gas, "P_nTorr", "P_nTorr"), (.gas, "sigma_ion_MBarn", "sigma_ion_MBarn"),
    (.gas, "Temp_K", "Temp_K"), (.gas, "E_init_ion", "E_init_ion"),
    (.gas, "flag_lifetime_hist", "flag_lifetime_hist"),
    (.photo, "inv_CDF_refl_photoem_file", "inv_CDF_refl_photoem_file"), (.photo, "k_pe_st", "k_pe_st"),
    (.photo, "refl_frac", "refl_frac"), (.photo, "e_pe_sigma", "e_pe_sigma"), (.photo, "e_pe_max", "e_pe_max"),
    (.photo, "alimit", "alimit"), (.photo, "x0_refl", "x0_refl"), (.photo, "y0_refl", "y0_refl"),
    (.photo, "out_radius", "out_radius"), (.photo, "resc_fac", "phem_resc_fac"),
    (.photo, "energy_distribution", "energy_distribution"),
    (.photo, "photoelectron_angle_distribution", "photoelectron_angle_distribution"),
    (.photo, "flag_continuous_emission", "flag_continuous_emission"),
    (.photoFile, "inv_CDF_all_photoem_file", "inv_CDF_all_photoem_file"), (.photoFile, "resc_fac", "phem_resc_fac"),
    (.photoFile, "energy_distribution", "energy_distribution"), (.photoFile, "e_pe_sigma", "e_pe_sigma"),
    (.photoFile, "e_pe_max", "e_pe_max"), (.photoFile, "k_pe_st", "k_pe_st"),
    (.photoFile, "out_radius", "out_radius"),
    (.photoFile, "photoelectron_angle_distribution", "photoelectron_angle_distribution"),
    (.photoFile, "flag_continuous_emission", "flag_continuous_emission"),
    (.photoSeg, "energy_distribution", "energy_distribution"), (.photoSeg, "e_pe_sigma", "e_pe_sigma"),
    (.photoSeg, "e_pe_max", "e_pe_max"), (.photoSeg, "k_pe_st", "k_pe_st"),
    (.photoSeg, "photoelectron_angle_distribution", "photoelectron_angle_distribution"),
    (.photoSeg, "flag_continuous_emission", "flag_continuous_emission"), (.saver, "r_center", "r_center"),
    (.saver, "Dt_En_hist", "Dt_En_hist"), (.saver, "logfile_path", "logfile_path"),
    (.saver, "progress_path", "progress_path"), (.saver, "flag_detailed_MP_info", "flag_detailed_MP_info"),
    (.saver, "cos_angle_width", "cos_angle_width"), (.saver, "flag_cos_angle_hist", "flag_cos_angle_hist"),
    (.saver, "flag_movie", "flag_movie"), (.saver, "flag_sc_movie", "flag_sc_movie"),
    (.saver, "save_mp_state_time_file", "save_mp_state_time_file"),
    (.saver, "dec_fac_secbeam_prof", "dec_fac_secbeam_prof"), (.saver, "el_density_probes", "el_density_probes"),
    (.saver, "save_simulation_state_time_file", "save_simulation_state_time_file"),
    (.saver, "x_min_hist_det", "x_min_hist_det"), (.saver, "x_max_hist_det", "x_max_hist_det"),
    (.saver, "y_min_hist_det", "y_min_hist_det"), (.saver, "y_max_hist_det", "y_max_hist_det"),
    (.saver, "Dx_hist_det", "Dx_hist_det"), (.saver, "flag_lifetime_hist", "flag_lifetime_hist"),
    (.saver, "Dt_lifetime_hist", "Dt_lifetime_hist"), (.saver, "save_only", "save_only"),
    (.boris, "N_sub_steps", "N_sub_steps"), (.multipole, "N_sub_steps", "N_sub_steps"),
    (.unif, "DNel", "Nel_init_unif"), (.unif, "E_init", "E_init_unif"), (.unif, "x_max", "x_max_init_unif"),
    (.unif, "x_min", "x_min_init_unif"), (.unif, "y_max", "y_max_init_unif"), (.unif, "y_min", "y_min_init_unif"),
    (.edens, "n_ele", "init_unif_edens"), (.edens, "E_init", "E_init_unif_edens"),
    (.edens, "x_max", "x_max_init_unif_edens"), (.edens, "x_min", "x_min_init_unif_edens"),
    (.edens, "y_max", "y_max_init_unif_edens"), (.edens, "y_min", "y_min_init_unif_edens"),
    (.mPfile, "filename_MPs", "filename_init_MP_state"), (.cloud, "gas_ion_flag", "gas_ion_flag"),
    (.cloud, "t_ion", "t_ion"), (.cloud, "photoem_flag", "photoem_flag"), (.ecloud, "Emax", "Emax"),
    (.ecloud, "del_max", "del_max"), (.ecloud, "R0", "R0"), (.ecloud, "E_th", "E_th"),
    (.ecloud, "sigmafit", "sigmafit"), (.ecloud, "mufit", "mufit"),
    (.ecloud, "switch_no_increase_energy", "switch_no_increase_energy"),
    (.ecloud, "thresh_low_energy", "thresh_low_energy"),
    (.ecloud, "secondary_angle_distribution", "secondary_angle_distribution"), (.ecloud, "E0", "E0"),
    (.ecloud, "s", "s_param"), (.ecloud, "flag_costheta_delta_scale", "flag_costheta_delta_scale"),
    (.ecloud, "flag_costheta_Emax_shift", "flag_costheta_Emax_shift"), (.accLow, "Emax", "Emax"),
    (.accLow, "del_max", "del_max"), (.accLow, "R0", "R0"), (.accLow, "E0", "E0"), (.accLow, "E_th", "E_th"),
    (.accLow, "sigmafit", "sigmafit"), (.accLow, "mufit", "mufit"),
    (.accLow, "switch_no_increase_energy", "switch_no_increase_energy"),
    (.accLow, "thresh_low_energy", "thresh_low_energy"),
    (.accLow, "secondary_angle_distribution", "secondary_angle_distribution"), (.nunif, "Emax", "Emax"),
    (.nunif, "del_max", "del_max"), (.nunif, "R0", "R0"), (.nunif, "E0", "E0"), (.nunif, "E_th", "E_th"),
    (.nunif, "sigmafit", "sigmafit"), (.nunif, "mufit", "mufit"),
    (.nunif, "switch_no_increase_energy", "switch_no_increase_energy"),
    (.nunif, "thresh_low_energy", "thresh_low_energy"),
    (.nunif, "secondary_angle_distribution", "secondary_angle_distribution"), (.charging, "Emax", "Emax"),
    (.charging, "del_max", "del_max"), (.charging, "R0", "R0"), (.charging, "E0", "E0"), (.charging, "E_th", "E_th"),
    (.charging, "sigmafit", "sigmafit"), (.charging, "mufit", "mufit"),
    (.charging, "switch_no_increase_energy", "switch_no_increase_energy"),
    (.charging, "thresh_low_energy", "thresh_low_energy"),
    (.charging, "secondary_angle_distribution", "secondary_angle_distribution"), (.cosLow, "Emax", "Emax"),
    (.cosLow, "del_max", "del_max"), (.cosLow, "R0", "R0"), (.cosLow, "E0", "E0"), (.cosLow, "E_th", "E_th"),
    (.cosLow, "sigmafit", "sigmafit"), (.cosLow, "mufit", "mufit"),
    (.cosLow, "switch_no_increase_energy", "switch_no_increase_energy"),
    (.cosLow, "thresh_low_energy", "thresh_low_energy"),
    (.cosLow, "secondary_angle_distribution", "secondary_angle_distribution"), (.flatLow, "Emax", "Emax"),
    (.flatLow, "del_max", "del_max"), (.flatLow, "R0", "R0"), (.flatLow, "E_th", "E_th"),
    (.flatLow, "sigmafit", "sigmafit"), (.flatLow, "mufit", "mufit"),
    (.flatLow, "switch_no_increase_energy", "switch_no_increase_energy"),
    (.flatLow, "thresh_low_energy", "thresh_low_energy"),
    (.flatLow, "secondary_angle_distribution", "secondary_angle_distribution"),
    (.seyFile, "flag_costheta_delta_scale", "flag_costheta_delta_scale"),
    (.seyFile, "flag_costheta_Emax_shift", "flag_costheta_Emax_shift"), (.seyFile, "E_th", "E_th"),
    (.seyFile, "sigmafit", "sigmafit"), (.seyFile, "mufit", "mufit"),
    (.seyFile, "switch_no_increase_energy", "switch_no_increase_energy"),
    (.seyFile, "thresh_low_energy", "thresh_low_energy"),
    (.seyFile, "secondary_angle_distribution", "secondary_angle_distribution"),
    (.fp, "furman_pivi_surface", "furman_pivi_surface"), (.fp, "E_th", "E_th"), (.fp, "sigmafit", "sigmafit"),
    (.fp, "mufit", "mufit"), (.fp, "switch_no_increase_energy", "switch_no_increase_energy"),
    (.fp, "thresh_low_energy", "thresh_low_energy"),
    (.fp, "secondary_angle_distribution", "secondary_angle_distribution"),
    (.fp, "flag_costheta_delta_scale", "flag_costheta_delta_scale"),
    (.fp, "flag_costheta_Emax_shift", "flag_costheta_Emax_shift")]

/-- Settings of a cloud file that do not appear in the table: they select components or are used before the
components are built. -/
def selectors : List String := ["init_unif_flag", "init_unif_edens_flag", "switch_model", "filename_chm_photoem",
  "flag_hist_impact_seg", "sey_file"]

end PyECLOUD
