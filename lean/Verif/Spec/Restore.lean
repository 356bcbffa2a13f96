/-
# Specification vocabulary: the contents of the main output file by time base

Written from the descriptions of the output, apart from the lists in the code.
-/
import Verif.Model.Np

namespace PyECLOUD

/-- Quantities with one entry for each saved time step. -/
def everyStep : List String := ["t", "lam_t_array", "Nel_timep", "Nel_imp_time", "Nel_emit_time", "En_imp_eV_time",
  "En_emit_eV_time", "En_kin_eV_time", "cen_density", "N_mp_time", "nel_mp_ref_time", "Nel_cross_ion", "N_mp_cross_ion",
  "DN_cross_ion", "En_electric_eV_time"]

/-- Quantities with one entry for each bunch passage, apart from the times of the passages. -/
def everyPassage : List String := ["nel_hist", "nel_hist_det", "nel_impact_hist_tot", "nel_impact_hist_scrub",
  "energ_eV_impact_hist", "N_mp_impact_pass", "N_mp_corrected_pass", "N_mp_pass", "N_mp_ref_pass", "nel_hist_impact_seg",
  "nel_hist_emit_seg", "energ_eV_impact_seg"]

/-- Quantities with entries at the interval of the energy histograms. -/
def everyEnergy : List String := ["En_hist", "all_Ekin_hist", "t_En_hist", "cos_angle_hist"]

/-- Data that do not change during a simulation, apart from those that depend on the surface model. -/
def neverChange (lifetime : Bool) : List String := ["xg_hist", "xg_hist_det", "En_g_hist", "b_spac", "t_sec_beams",
  "sec_beam_profiles", "x_el_dens_probes", "y_el_dens_probes", "r_el_dens_probes", "xg_hist_cos_angle", "dec_fact_out",
  "chamber_area", "sey_test_E_impact_eV", "sey_test_cos_theta", "ene_dist_test_cos_theta", "ene_dist_test_E_impact_eV"] ++
  (if lifetime then ["lifetime_g_hist"] else [])

/-- Series that a restart does not restore at all. -/
def lostSeries : List String := ["t_hist", "lifetime_hist", "t_lifetime_hist", "En_hist_seg"]

end PyECLOUD
