/-
Specification of the contents of the main output file, independent of how the dictionary is put
together: which name shows which recorded quantity.
-/
import Verif.Model.OutDict

namespace PyECLOUD

variable {V : Type}

/-- Quantities that every main output file shows under their own name. -/
def alwaysShown : List String :=
  ["t_hist", "nel_hist", "xg_hist", "nel_impact_hist_tot", "nel_impact_hist_scrub", "energ_eV_impact_hist",
   "En_g_hist", "En_hist", "En_hist_seg", "all_Ekin_hist", "t_En_hist", "b_spac", "t_sc_video", "U_sc_eV",
   "N_mp_impact_pass", "N_mp_corrected_pass", "N_mp_pass", "N_mp_ref_pass", "nel_hist_impact_seg",
   "nel_hist_emit_seg", "energ_eV_impact_seg", "t_sec_beams", "sec_beam_profiles", "x_el_dens_probes",
   "y_el_dens_probes", "r_el_dens_probes", "nel_hist_det", "xg_hist_det", "dec_fact_out",
   "cos_angle_hist", "xg_hist_cos_angle", "sey_test_cos_theta",
   "t", "lam_t_array", "Nel_timep", "Nel_imp_time", "Nel_emit_time", "En_imp_eV_time", "En_emit_eV_time",
   "En_kin_eV_time", "cen_density"]

/-- `Shows s k v`: the simulation recorded the value `v` as the quantity a user finds under `k`. -/
inductive Shows (s : OutSrc V) : String → V → Prop
  | always {k : String} (h : k ∈ alwaysShown) : Shows s k (s.attr k)
  | area : Shows s "chamber_area" (s.attr "area")
  | lifetime {k : String} (h : s.lifetime = true)
      (hk : k ∈ ["lifetime_g_hist", "lifetime_hist", "t_lifetime_hist"]) : Shows s k (s.attr k)
  | detailed {k : String} (h : s.detailed = true) (hk : k ∈ ["N_mp_time", "nel_mp_ref_time"]) :
      Shows s k (s.attr k)
  | cross {k : String} (h : s.cross = true) (hk : k ∈ ["Nel_cross_ion", "N_mp_cross_ion", "DN_cross_ion"]) :
      Shows s k (s.attr k)
  | elec (h : s.elec = true) : Shows s "En_electric_eV_time" (s.attr "En_electric_eV_time")
  | probes (h : s.probes = true) : Shows s "el_dens_at_probes" (s.attr "el_dens_at_probes")
  | yield {n : String} {v : V} (h : (n, v) ∈ s.sey) : Shows s ("sey_test_del_" ++ n ++ "_mat") v
  | spectrum {n : String} {v : V} (he : s.extractEne = true) (h : (n, v) ∈ s.ene)
      (hn : ¬ "hist".toList <:+: n.toList) : Shows s ("emit_ene_test_" ++ n ++ "_mat") v
  | spectrumGrid {k : String} (he : s.extractEne = true)
      (hk : k ∈ ["ene_dist_test_cos_theta", "ene_dist_test_E_impact_eV"]) : Shows s k (s.attr k)
  | energyGrid {v : V} (he : s.extractEne = true) (h : ("emit_ene_g_hist", v) ∈ s.ene) :
      Shows s "emit_ene_g_hist" v

/-- The name is used by one of the observables defined by the user. -/
def CustomName (s : OutSrc V) (k : String) : Prop :=
  k ∈ s.sbs.map Prod.fst ∨ k ∈ s.pbp.map Prod.fst ∨ k ∈ s.once.map Prod.fst

/-- The sources are Python dictionaries: no key occurs twice in one of them. -/
structure OutSrc.Proper (s : OutSrc V) : Prop where
  sey : (s.sey.map Prod.fst).Nodup
  ene : (s.ene.map Prod.fst).Nodup
  sbs : (s.sbs.map Prod.fst).Nodup
  pbp : (s.pbp.map Prod.fst).Nodup
  once : (s.once.map Prod.fst).Nodup

end PyECLOUD
