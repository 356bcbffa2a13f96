{
 "claims": [
  {
   "property": "C01",
   "status": "proved",
   "theorems": [
    "PyECLOUD.C01_clean_exact"
   ],
   "note": ""
  },
  {
   "property": "C02",
   "status": "partial",
   "theorems": [
    "PyECLOUD.C02_soft_regen_charge_partial",
    "PyECLOUD.C02_violated"
   ],
   "note": "charge conserved whenever a macroparticle survives; the code loses the whole charge when none survives (C02_violated)"
  },
  {
   "property": "C03",
   "status": "proved",
   "theorems": [
    "PyECLOUD.C03_soft_regen_thins"
   ],
   "note": ""
  },
  {
   "property": "C04",
   "status": "proved",
   "theorems": [
    "PyECLOUD.C04_thresholds_locked"
   ],
   "note": ""
  },
  {
   "property": "C05",
   "status": "partial",
   "theorems": [
    "PyECLOUD.C05_add_appends",
    "PyECLOUD.C05_add_overflow_raises_partial",
    "PyECLOUD.C05_violated"
   ],
   "note": "fits -> exact append; overflow -> raises, except one macroparticle into full arrays (C05_violated)"
  },
  {
   "property": "C06",
   "status": "partial",
   "theorems": [
    "PyECLOUD.C06_capacity_partial",
    "PyECLOUD.C06_violated"
   ],
   "note": "capacity invariant over all histories except the broadcasting case (C06_violated)"
  },
  {
   "property": "C07",
   "status": "proved",
   "theorems": [
    "PyECLOUD.C07_uniform_distrib",
    "PyECLOUD.C07_default_limits"
   ],
   "note": ""
  },
  {
   "property": "C08",
   "status": "partial",
   "theorems": [
    "PyECLOUD.C08_density_no_history_partial",
    "PyECLOUD.C08_file_no_history_partial",
    "PyECLOUD.C08_violated"
   ],
   "note": "proved for uniform density, dictionaries and regenerations; add_uniform_MP_distrib inherits stale impact times (C08_violated)"
  },
  {
   "property": "C09",
   "status": "partial",
   "theorems": [
    "PyECLOUD.C09_dict_round_trip_partial",
    "PyECLOUD.C09_violated"
   ],
   "note": "all attributes but the last-impact time are restored; the code resets it (C09_violated)"
  },
  {
   "property": "C10",
   "status": "partial",
   "theorems": [
    "PyECLOUD.C10_dead_slots_ignored",
    "PyECLOUD.C10_direct_use_violated"
   ],
   "note": "simulation-loop regenerations ignore dead slots; a direct soft regeneration after init_from_dict does not (C10_direct_use_violated)"
  },
  {
   "property": "C11",
   "status": "proved",
   "theorems": [
    "PyECLOUD.C11_full_regen_uniform"
   ],
   "note": ""
  },
  {
   "property": "C12",
   "status": "proved",
   "theorems": [
    "PyECLOUD.C12_full_regen_charge"
   ],
   "note": ""
  },
  {
   "property": "C13",
   "status": "partial",
   "theorems": [
    "PyECLOUD.C13_nearest_cell_partial",
    "PyECLOUD.C13_decode_partial",
    "PyECLOUD.C13_regen_local_partial",
    "PyECLOUD.C13_violated"
   ],
   "note": "proved unless an axis size is a multiple of 4 and a coordinate is exactly at the negative end (C13_violated)"
  },
  {
   "property": "C14",
   "status": "proved",
   "theorems": [
    "PyECLOUD.C14_cut_terminates_small"
   ],
   "note": ""
  },
  {
   "property": "C15",
   "status": "proved",
   "theorems": [
    "PyECLOUD.C15_full_regen_trigger",
    "PyECLOUD.C15_full_regen_fires",
    "PyECLOUD.C15_soft_trigger",
    "PyECLOUD.C15_async_trigger"
   ],
   "note": ""
  },
  {
   "property": "C16",
   "status": "proved",
   "theorems": [
    "PyECLOUD.C16_inside_untouched"
   ],
   "note": ""
  },
  {
   "property": "C17",
   "status": "proved",
   "theorems": [
    "PyECLOUD.C17_ellipse",
    "PyECLOUD.C17_all_inside",
    "PyECLOUD.C17_polygon"
   ],
   "note": ""
  },
  {
   "property": "C18",
   "status": "proved",
   "theorems": [
    "PyECLOUD.C18_charge_balance",
    "PyECLOUD.C18_ecloud_model",
    "PyECLOUD.C18_furman_pivi_model",
    "PyECLOUD.C18_absorber_model"
   ],
   "note": ""
  },
  {
   "property": "C19",
   "status": "proved",
   "theorems": [
    "PyECLOUD.C19_histograms",
    "PyECLOUD.C19_spectra"
   ],
   "note": ""
  },
  {
   "property": "C20",
   "status": "proved",
   "theorems": [
    "PyECLOUD.C20_compute_hist",
    "PyECLOUD.C20_vect_sum",
    "PyECLOUD.C20_compute_hist_total"
   ],
   "note": ""
  },
  {
   "property": "C21",
   "status": "proved",
   "theorems": [
    "PyECLOUD.C21_rho_nodes",
    "PyECLOUD.C21_rho_charge",
    "PyECLOUD.C21_rho_moments"
   ],
   "note": ""
  },
  {
   "property": "C22",
   "status": "proved",
   "theorems": [
    "PyECLOUD.C22_convex",
    "PyECLOUD.C22_bilinear_exact",
    "PyECLOUD.C22_zero_outside",
    "PyECLOUD.C22_adjoint"
   ],
   "note": ""
  },
  {
   "property": "C23",
   "status": "proved",
   "theorems": [
    "PyECLOUD.C23_yield_fraction",
    "PyECLOUD.C23_maximum",
    "PyECLOUD.C23_cosine_model"
   ],
   "note": ""
  },
  {
   "property": "C24",
   "status": "proved",
   "theorems": [
    "PyECLOUD.C24_splitting"
   ],
   "note": ""
  },
  {
   "property": "C25",
   "status": "proved",
   "theorems": [
    "PyECLOUD.C25_treatment"
   ],
   "note": ""
  },
  {
   "property": "C26",
   "status": "partial",
   "theorems": [
    "PyECLOUD.C26_violated",
    "PyECLOUD.C26_total_yield_partial"
   ],
   "note": "total yield correct in the partial theorem; the returned reflected-yield array aliases the total one and is changed by the caller's scaling (C26_violated)"
  },
  {
   "property": "C27",
   "status": "proved",
   "theorems": [
    "PyECLOUD.C27_effective_yield",
    "PyECLOUD.C27_batch_balance",
    "PyECLOUD.C27_decay",
    "PyECLOUD.C27_other_segments_neutral",
    "PyECLOUD.C27_wall_and_cloud"
   ],
   "note": ""
  },
  {
   "property": "C28",
   "status": "proved",
   "theorems": [
    "PyECLOUD.C28_segment_parameters",
    "PyECLOUD.C28_local"
   ],
   "note": ""
  },
  {
   "property": "C29",
   "status": "partial",
   "theorems": [
    "PyECLOUD.C29_interpolation_partial",
    "PyECLOUD.C29_violated_below",
    "PyECLOUD.C29_violated_step",
    "PyECLOUD.C29_values",
    "PyECLOUD.C29_accepted"
   ],
   "note": "interpolation exact inside the table; below the first energy the code wraps to the last entry, and the step is rounded to 3 decimals (C29_violated_*)"
  },
  {
   "property": "C30",
   "status": "proved",
   "theorems": [
    "PyECLOUD.C30_absorber"
   ],
   "note": ""
  },
  {
   "property": "C31",
   "status": "proved",
   "theorems": [
    "PyECLOUD.C31_flags_partition",
    "PyECLOUD.C31_kind_intervals",
    "PyECLOUD.C31_events",
    "PyECLOUD.C31_refused",
    "PyECLOUD.C31_cut_loop_ends"
   ],
   "note": ""
  },
  {
   "property": "C32",
   "status": "partial",
   "theorems": [
    "PyECLOUD.C32_violated",
    "PyECLOUD.C32_new_velocity_partial"
   ],
   "note": "velocities of newly emitted macroparticles follow the emission law; a batch where the re-used slots are not set keeps the impact velocity (C32_violated)"
  },
  {
   "property": "C33",
   "status": "proved",
   "theorems": [
    "PyECLOUD.C33_specular",
    "PyECLOUD.C33_impact_normal_velocity"
   ],
   "note": ""
  },
  {
   "property": "C34",
   "status": "proved",
   "theorems": [
    "PyECLOUD.C34_emission",
    "PyECLOUD.C34_normal",
    "PyECLOUD.C34_names"
   ],
   "note": ""
  },
  {
   "property": "C35",
   "status": "proved",
   "theorems": [
    "PyECLOUD.C35_caps",
    "PyECLOUD.C35_mode1_rejected"
   ],
   "note": ""
  },
  {
   "property": "C36",
   "status": "proved",
   "theorems": [
    "PyECLOUD.C36_boris_speed",
    "PyECLOUD.C36_multipole_speed",
    "PyECLOUD.C36_only_phase_changes"
   ],
   "note": ""
  },
  {
   "property": "C37",
   "status": "proved",
   "theorems": [
    "PyECLOUD.C37_boris_pure_electric",
    "PyECLOUD.C37_multipole_pure_electric"
   ],
   "note": ""
  },
  {
   "property": "C38",
   "status": "partial",
   "theorems": [
    "PyECLOUD.C38_complex_expansion_partial",
    "PyECLOUD.C38_divergence_curl_free",
    "PyECLOUD.C38_skew_violated",
    "PyECLOUD.C38_single_skew_violated",
    "PyECLOUD.C38_custom_added"
   ],
   "note": "complex expansion, divergence and curl free for arrays of equal length; a B_skew of other length is broadcast or fails (C38_skew_violated, C38_single_skew_violated)"
  },
  {
   "property": "C39",
   "status": "proved",
   "theorems": [
    "PyECLOUD.C39_exact",
    "PyECLOUD.C39_small",
    "PyECLOUD.C39_no_field",
    "PyECLOUD.C39_speed",
    "PyECLOUD.C39_composition"
   ],
   "note": ""
  },
  {
   "property": "C40",
   "status": "proved",
   "theorems": [
    "PyECLOUD.C40_run",
    "PyECLOUD.C40_elapsed"
   ],
   "note": ""
  },
  {
   "property": "C41",
   "status": "proved",
   "theorems": [
    "PyECLOUD.C41_new_passage"
   ],
   "note": ""
  },
  {
   "property": "C42",
   "status": "partial",
   "theorems": [
    "PyECLOUD.C42_schedule_partial",
    "PyECLOUD.C42_first_opportunity_violated"
   ],
   "note": "recomputation schedule for histories with space charge on; the first recomputation after switch-on can be one period late (C42_first_opportunity_violated)"
  },
  {
   "property": "C43",
   "status": "proved",
   "theorems": [
    "PyECLOUD.C43_cloud_densities"
   ],
   "note": ""
  },
  {
   "property": "C44",
   "status": "partial",
   "theorems": [
    "PyECLOUD.C44_plan_total_partial",
    "PyECLOUD.C44_free_motion_partial",
    "PyECLOUD.C44_refusals",
    "PyECLOUD.C44_short_step_violated",
    "PyECLOUD.C44_file_profile_violated",
    "PyECLOUD.C44_file_step"
   ],
   "note": "sub-step plans add up for steps long enough; short steps give no sub-step, and a file profile uses the configured step (C44_*_violated)"
  },
  {
   "property": "C45",
   "status": "proved",
   "theorems": [
    "PyECLOUD.C45_photoemission_ellipse",
    "PyECLOUD.C45_photoemission_polygon",
    "PyECLOUD.C45_gas_ionisation",
    "PyECLOUD.C45_gas_positions",
    "PyECLOUD.C45_gas_rate",
    "PyECLOUD.C45_photoemission",
    "PyECLOUD.C45_photoemission_per_segment"
   ],
   "note": ""
  },
  {
   "property": "C46",
   "status": "partial",
   "theorems": [
    "PyECLOUD.C46_target",
    "PyECLOUD.C46_products",
    "PyECLOUD.C46_charge",
    "PyECLOUD.C46_history",
    "PyECLOUD.C46_nonneg_partial",
    "PyECLOUD.C46_step",
    "PyECLOUD.C46_counters_read",
    "PyECLOUD.C46_negative_violated"
   ],
   "note": "non-negativity under a bound on the production per step; without it the target density becomes negative (C46_negative_violated)"
  },
  {
   "property": "C47",
   "status": "proved",
   "theorems": [
    "PyECLOUD.C47_convex_exact",
    "PyECLOUD.C47_interior",
    "PyECLOUD.C47_rectangle",
    "PyECLOUD.C47_segment"
   ],
   "note": ""
  },
  {
   "property": "C48",
   "status": "partial",
   "theorems": [
    "PyECLOUD.C48_robust_inside",
    "PyECLOUD.C48_on_trajectory",
    "PyECLOUD.C48_first_exit_partial",
    "PyECLOUD.C48_end_on_wall",
    "PyECLOUD.C48_end_on_wall_violated"
   ],
   "note": "first exit along the trajectory for impacts found by the edge loop; the correction for impacts not found never runs (C48_end_on_wall_violated)"
  },
  {
   "property": "C49",
   "status": "proved",
   "theorems": [
    "PyECLOUD.C49_is_outside",
    "PyECLOUD.C49_inside",
    "PyECLOUD.C49_step_back",
    "PyECLOUD.C49_normal",
    "PyECLOUD.C49_first_exit"
   ],
   "note": ""
  },
  {
   "property": "C50",
   "status": "proved",
   "theorems": [
    "PyECLOUD.C50_groups",
    "PyECLOUD.C50_channels",
    "PyECLOUD.C50_total",
    "PyECLOUD.C50_decimation"
   ],
   "note": ""
  },
  {
   "property": "C51",
   "status": "partial",
   "theorems": [
    "PyECLOUD.C51_lengths_partial",
    "PyECLOUD.C51_probes_violated"
   ],
   "note": "all series have the stated length but the probe densities, one sample short (C51_probes_violated)"
  },
  {
   "property": "C52",
   "status": "proved",
   "theorems": [
    "PyECLOUD.C52_no_loss"
   ],
   "note": ""
  },
  {
   "property": "C53",
   "status": "proved",
   "theorems": [
    "PyECLOUD.C53_counters",
    "PyECLOUD.C53_passes",
    "PyECLOUD.C53_total",
    "PyECLOUD.C53_charge"
   ],
   "note": ""
  },
  {
   "property": "C54",
   "status": "partial",
   "theorems": [
    "PyECLOUD.C54_cloud_histogram",
    "PyECLOUD.C54_detailed_partial",
    "PyECLOUD.C54_detailed_stale",
    "PyECLOUD.C54_kinetic",
    "PyECLOUD.C54_violated"
   ],
   "note": "histograms are exact for a non-empty cloud; an empty cloud repeats the previous detailed histogram (C54_violated)"
  },
  {
   "property": "C55",
   "status": "partial",
   "theorems": [
    "PyECLOUD.C55_survives",
    "PyECLOUD.C55_loads_latest",
    "PyECLOUD.C55_restart_partial",
    "PyECLOUD.C55_two_files",
    "PyECLOUD.C55_violated",
    "PyECLOUD.C55_violated_first",
    "PyECLOUD.C55_violated_output",
    "PyECLOUD.C55_violated_copy",
    "PyECLOUD.C55_violated_no_output"
   ],
   "note": "the restart loads the last complete checkpoint unless the crash is in one of five windows, each shown to break the restart (C55_violated*)"
  },
  {
   "property": "C56",
   "status": "partial",
   "theorems": [
    "PyECLOUD.C56_custom_refused",
    "PyECLOUD.C56_passages_partial",
    "PyECLOUD.C56_constants",
    "PyECLOUD.C56_violated_probes",
    "PyECLOUD.C56_violated_steps",
    "PyECLOUD.C56_violated_times",
    "PyECLOUD.C56_violated_energy",
    "PyECLOUD.C56_violated_sc",
    "PyECLOUD.C56_all_covered"
   ],
   "note": "passage series and constants restored; step series, hit-time series, energy histograms and U_sc_eV are not (C56_violated_*)"
  },
  {
   "property": "C57",
   "status": "proved",
   "theorems": [
    "PyECLOUD.C57_accept_iff",
    "PyECLOUD.C57_join_iff",
    "PyECLOUD.C57_tables",
    "PyECLOUD.C57_values",
    "PyECLOUD.C57_duplicate",
    "PyECLOUD.C57_read_files",
    "PyECLOUD.C57_kwargs"
   ],
   "note": ""
  },
  {
   "property": "C58",
   "status": "proved",
   "theorems": [
    "PyECLOUD.C58_refused_iff",
    "PyECLOUD.C58_bunch",
    "PyECLOUD.C58_train"
   ],
   "note": ""
  },
  {
   "property": "C59",
   "status": "proved",
   "theorems": [
    "PyECLOUD.C59_average_yield",
    "PyECLOUD.C59_average_reflected"
   ],
   "note": ""
  },
  {
   "property": "C60",
   "status": "proved",
   "theorems": [
    "PyECLOUD.C60_exact"
   ],
   "note": ""
  },
  {
   "property": "C61",
   "status": "proved",
   "theorems": [
    "PyECLOUD.C61_boris_agree",
    "PyECLOUD.C61_boris_agree_uniform"
   ],
   "note": ""
  },
  {
   "property": "C62",
   "status": "partial",
   "theorems": [
    "PyECLOUD.C62_tracker_choice_partial",
    "PyECLOUD.C62_substeps_violated"
   ],
   "note": "tracker choice as documented; the multipole tracker takes the sub-steps of the main input, not of the cloud (C62_substeps_violated)"
  },
  {
   "property": "C63",
   "status": "proved",
   "theorems": [
    "PyECLOUD.C63_resume",
    "PyECLOUD.C63_stop"
   ],
   "note": ""
  },
  {
   "property": "C64",
   "status": "proved",
   "theorems": [
    "PyECLOUD.C64_time_grid"
   ],
   "note": ""
  },
  {
   "property": "C65",
   "status": "proved",
   "theorems": [
    "PyECLOUD.C65_bunch_train",
    "PyECLOUD.C65_bounds"
   ],
   "note": ""
  },
  {
   "property": "C66",
   "status": "proved",
   "theorems": [
    "PyECLOUD.C66_kick_mode"
   ],
   "note": ""
  },
  {
   "property": "C67",
   "status": "proved",
   "theorems": [
    "PyECLOUD.C67_rounding_unbiased",
    "PyECLOUD.C67_photo_rounding_unbiased"
   ],
   "note": ""
  },
  {
   "property": "C68",
   "status": "proved",
   "theorems": [
    "PyECLOUD.C68_linear_table",
    "PyECLOUD.C68_log_table",
    "PyECLOUD.C68_nonneg",
    "PyECLOUD.C68_refused",
    "PyECLOUD.C68_uniform_iff"
   ],
   "note": ""
  },
  {
   "property": "C69",
   "status": "proved",
   "theorems": [
    "PyECLOUD.C69_uniform_density"
   ],
   "note": ""
  },
  {
   "property": "C70",
   "status": "partial",
   "theorems": [
    "PyECLOUD.C70_accepted_iff",
    "PyECLOUD.C70_orientation",
    "PyECLOUD.C70_interior",
    "PyECLOUD.C70_star_violated",
    "PyECLOUD.C70_repeated_vertex",
    "PyECLOUD.C70_repeated_vertex_violated",
    "PyECLOUD.C70_rectangle_area"
   ],
   "note": "acceptance characterised exactly; star polygons and repeated vertices are accepted although not convex (C70_*_violated)"
  },
  {
   "property": "C71",
   "status": "proved",
   "theorems": [
    "PyECLOUD.C71_on_edge",
    "PyECLOUD.C71_subset",
    "PyECLOUD.C71_subset_refl"
   ],
   "note": ""
  },
  {
   "property": "C72",
   "status": "proved",
   "theorems": [
    "PyECLOUD.C72_even_odd",
    "PyECLOUD.C72_bounding_box",
    "PyECLOUD.C72_agrees_convex"
   ],
   "note": ""
  },
  {
   "property": "C73",
   "status": "proved",
   "theorems": [
    "PyECLOUD.C73_live_only"
   ],
   "note": ""
  },
  {
   "property": "C74",
   "status": "proved",
   "theorems": [
    "PyECLOUD.C74_energy",
    "PyECLOUD.C74_lifetime"
   ],
   "note": ""
  },
  {
   "property": "C75",
   "status": "proved",
   "theorems": [
    "PyECLOUD.C75_pacing"
   ],
   "note": ""
  },
  {
   "property": "C76",
   "status": "partial",
   "theorems": [
    "PyECLOUD.C76_restart_partial",
    "PyECLOUD.C76_violated"
   ],
   "note": "a restarted run equals the uninterrupted one when the passage needs no cleaning or regeneration; otherwise it differs (C76_violated)"
  },
  {
   "property": "C77",
   "status": "proved",
   "theorems": [
    "PyECLOUD.C77_mp_snapshots",
    "PyECLOUD.C77_sim_snapshots",
    "PyECLOUD.C77_all_served"
   ],
   "note": ""
  },
  {
   "property": "C78",
   "status": "proved",
   "theorems": [
    "PyECLOUD.C78_movie"
   ],
   "note": ""
  },
  {
   "property": "C79",
   "status": "partial",
   "theorems": [
    "PyECLOUD.C79_cloud_file",
    "PyECLOUD.C79_default_cloud",
    "PyECLOUD.C79_tables",
    "PyECLOUD.C79_main_complete",
    "PyECLOUD.C79_outputs_partial",
    "PyECLOUD.C79_default_output",
    "PyECLOUD.C79_violated"
   ],
   "note": "parameters fully proved; output names differ for clouds of different names, but files of equal basename in two folders collide (C79_violated)"
  },
  {
   "property": "C80",
   "status": "partial",
   "theorems": [
    "PyECLOUD.C80_frozen_partial",
    "PyECLOUD.C80_violated"
   ],
   "note": "proved with both kicks enabled; the map ignores enable_kick_x and enable_kick_y (C80_violated)"
  },
  {
   "property": "C81",
   "status": "partial",
   "theorems": [
    "PyECLOUD.C81_independent_partial",
    "PyECLOUD.C81_stale_field",
    "PyECLOUD.C81_violated"
   ],
   "note": "independent of the history except for the field left in the solver, in which the first motion takes place (C81_stale_field, C81_violated)"
  },
  {
   "property": "C82",
   "status": "partial",
   "theorems": [
    "PyECLOUD.C82_suspended_partial",
    "PyECLOUD.C82_violated"
   ],
   "note": "proved without asynchronous regeneration, which is not suspended (C82_violated)"
  },
  {
   "property": "C83",
   "status": "proved",
   "theorems": [
    "PyECLOUD.C83_no_fault",
    "PyECLOUD.C83_conj",
    "PyECLOUD.C83_reflect",
    "PyECLOUD.C83_real_axis"
   ],
   "note": ""
  },
  {
   "property": "C84",
   "status": "partial",
   "theorems": [
    "PyECLOUD.C84_mirror",
    "PyECLOUD.C84_exchange",
    "PyECLOUD.C84_outward_partial",
    "PyECLOUD.C84_round_violated",
    "PyECLOUD.C84_scale"
   ],
   "note": "symmetries and scaling proved for all sizes; existence and outward direction for unequal sizes; round beams give nan (C84_round_violated)"
  },
  {
   "property": "C85",
   "status": "proved",
   "theorems": [
    "PyECLOUD.C85_superposition",
    "PyECLOUD.C85_total",
    "PyECLOUD.C85_order"
   ],
   "note": ""
  },
  {
   "property": "C86",
   "status": "partial",
   "theorems": [
    "PyECLOUD.C86_together",
    "PyECLOUD.C86_lookup_partial",
    "PyECLOUD.C86_lookup_violated"
   ],
   "note": "common time proved; lookup proved for a file with extension in the input folder; otherwise the name of the primary beam is used (C86_lookup_violated)"
  },
  {
   "property": "C87",
   "status": "partial",
   "theorems": [
    "PyECLOUD.C87_round",
    "PyECLOUD.C87_fields_partial",
    "PyECLOUD.C87_interval_violated",
    "PyECLOUD.C87_first_violated",
    "PyECLOUD.C87_restart_violated"
   ],
   "note": "proved for recomputations Dt_sc apart; other spacing, first recomputation and restart violate it (witness theorems)"
  },
  {
   "property": "C88",
   "status": "proved",
   "theorems": [
    "PyECLOUD.C88_given",
    "PyECLOUD.C88_refused_iff",
    "PyECLOUD.C88_emittance",
    "PyECLOUD.C88_energy"
   ],
   "note": ""
  },
  {
   "property": "C89",
   "status": "proved",
   "theorems": [
    "PyECLOUD.C89_invariant",
    "PyECLOUD.C89_simulation",
    "PyECLOUD.C89_ecloud_good"
   ],
   "note": ""
  },
  {
   "property": "C90",
   "status": "proved",
   "theorems": [
    "PyECLOUD.C90_balance",
    "PyECLOUD.C90_wall"
   ],
   "note": ""
  },
  {
   "property": "C91",
   "status": "proved",
   "theorems": [
    "PyECLOUD.C91_elastic",
    "PyECLOUD.C91_rediffused",
    "PyECLOUD.C91_true",
    "PyECLOUD.C91_angle",
    "PyECLOUD.C91_clip",
    "PyECLOUD.C91_ecloud_shift"
   ],
   "note": ""
  },
  {
   "property": "C92",
   "status": "partial",
   "theorems": [
    "PyECLOUD.C92_mean_yield_partial",
    "PyECLOUD.C92_violated"
   ],
   "note": "mean over the events and the truncated Poisson numbers bounded from both sides; the truncation at M_cut makes it strictly smaller than the yield (C92_violated)"
  },
  {
   "property": "C93",
   "status": "proved",
   "theorems": [
    "PyECLOUD.C93_rediffused",
    "PyECLOUD.C93_backscattered",
    "PyECLOUD.C93_sigma",
    "PyECLOUD.C93_true"
   ],
   "note": ""
  },
  {
   "property": "C94",
   "status": "partial",
   "theorems": [
    "PyECLOUD.C94_pairs_partial",
    "PyECLOUD.C94_round",
    "PyECLOUD.C94_redraw_violated",
    "PyECLOUD.C94_violated"
   ],
   "note": "proved for every pair of the first electron of an event and one of the others; with three or more electrons the sum is not checked and can exceed the impact energy (C94_violated)"
  },
  {
   "property": "C95",
   "status": "partial",
   "theorems": [
    "PyECLOUD.C95_turns_partial",
    "PyECLOUD.C95_kth_slice",
    "PyECLOUD.C95_violated",
    "PyECLOUD.C95_restart_violated"
   ],
   "note": "proved for slices that all interact and an explicit restart between turns; the map kicks slices that do not interact (C95_violated) and does not restart on the metadata of the first slice (C95_restart_violated)"
  },
  {
   "property": "C96",
   "status": "partial",
   "theorems": [
    "PyECLOUD.C96_file_content",
    "PyECLOUD.C96_complete_partial",
    "PyECLOUD.C96_violated"
   ],
   "note": "proved for runs without extra time after the last bunch slot; with extra time the last steps can be missing, and a run can end without any file (C96_violated)"
  },
  {
   "property": "C97",
   "status": "partial",
   "theorems": [
    "PyECLOUD.C97_stop",
    "PyECLOUD.C97_records",
    "PyECLOUD.C97_single_partial",
    "PyECLOUD.C97_violated"
   ],
   "note": "proved for one cloud, and in general up to the cloud that finds the stop file; the clouds after it lose the step and their file of that passage (C97_violated)"
  },
  {
   "property": "C98",
   "status": "proved",
   "theorems": [
    "PyECLOUD.C98_test_impacts",
    "PyECLOUD.C98_curves",
    "PyECLOUD.C98_matrix",
    "PyECLOUD.C98_nonuniform",
    "PyECLOUD.C98_distribution"
   ],
   "note": ""
  },
  {
   "property": "C99",
   "status": "partial",
   "theorems": [
    "PyECLOUD.C99_no_side_effect_partial",
    "PyECLOUD.C99_violated"
   ],
   "note": "proved for models without charging of the second segment; with charging the test impacts charge the segment and change later yields (C99_violated)"
  },
  {
   "property": "C100",
   "status": "partial",
   "theorems": [
    "PyECLOUD.C100_counts",
    "PyECLOUD.C100_order",
    "PyECLOUD.C100_per_segment",
    "PyECLOUD.C100_share",
    "PyECLOUD.C100_first_wall",
    "PyECLOUD.C100_direction",
    "PyECLOUD.C100_direction_file",
    "PyECLOUD.C100_succeeds",
    "PyECLOUD.C100_inverse_cdf",
    "PyECLOUD.C100_violated_negative",
    "PyECLOUD.C100_violated_short",
    "PyECLOUD.C100_violated_long"
   ],
   "note": "The last sentence is false of the code: a phem_cdf with a negative first entry, or of a length that is not the number of segments, is accepted by the chamber (C100_violated_*). The rest is proved for accepted distributions that start at or above 0. The check of the circles at start-up is done at 10000 angles only; the theorems assume it for all angles."
  },
  {
   "property": "C101",
   "status": "partial",
   "theorems": [
    "PyECLOUD.C101_table",
    "PyECLOUD.C101_angle_partial",
    "PyECLOUD.C101_maximum",
    "PyECLOUD.C101_angle_violated",
    "PyECLOUD.C101_E0_violated"
   ],
   "note": "The table is proved in full (C101_table: built iff in the table). The last sentence is false of the code: ACC_LOW, cos_low_ene and the non-uniform surfaces do not receive the angular flags (C101_angle_violated), so it is proved for ECLOUD. E0 with flat_low_ene, from_file or furman_pivi is a TypeError (C101_E0_violated)."
  },
  {
   "property": "C102",
   "status": "partial",
   "theorems": [
    "PyECLOUD.C102_sources_partial",
    "PyECLOUD.C102_photo_violated",
    "PyECLOUD.C102_gas_violated",
    "PyECLOUD.C102_lifetime_partial",
    "PyECLOUD.C102_lifetime_violated"
   ],
   "note": "For the known values and for clouds with the settings of the main files this is proved (C102_sources_partial, C102_lifetime_partial). The code accepts other values of photoem_flag and stops in the first step (C102_photo_violated), ignores other values of gas_ion_flag and never ionises with the default t_ion (C102_gas_violated), and builds the impact management of every cloud with the lifetime settings of the main files (C102_lifetime_violated)."
  },
  {
   "property": "C103",
   "status": "partial",
   "theorems": [
    "PyECLOUD.C103_composition_partial",
    "PyECLOUD.C103_violated"
   ],
   "note": "Proved with the exact contents for all three sources (C103_composition_partial). Nothing checks that the macroparticles of the file are inside the chamber (C103_violated)."
  },
  {
   "property": "C104",
   "status": "partial",
   "theorems": [
    "PyECLOUD.C104_bound_partial",
    "PyECLOUD.C104_violated"
   ],
   "note": "False of the code: the speed parameter is that of E/3 and is multiplied with a number between -1/2 and 1/2 for each component; the energy of an electron is at most E/4 (C104_bound_partial, all draws) and E/12 on average (C104_violated, as an integral)."
  },
  {
   "property": "C105",
   "status": "partial",
   "theorems": [
    "PyECLOUD.C105_wall_partial",
    "PyECLOUD.C105_converges",
    "PyECLOUD.C105_succeeds",
    "PyECLOUD.C105_mirror",
    "PyECLOUD.C105_round",
    "PyECLOUD.C105_map",
    "PyECLOUD.C105_tall_violated",
    "PyECLOUD.C105_focus_violated"
   ],
   "note": "Proved for chambers wider than high (C105_wall_partial with an explicit bound that tends to zero, C105_mirror) and for almost round ones (C105_round). A chamber higher than wide is accepted and gives a map of nan (C105_tall_violated); a node on a focus gives nan (C105_focus_violated). The potential of the beam is that of a line charge on the axis."
  },
  {
   "property": "C106",
   "status": "proved",
   "theorems": [
    "PyECLOUD.C106_cell",
    "PyECLOUD.C106_total"
   ],
   "note": "The error function is its definition as an integral; the grid of PyPIC is assumed to have square cells of the given size."
  },
  {
   "property": "C107",
   "status": "partial",
   "theorems": [
    "PyECLOUD.C107_built",
    "PyECLOUD.C107_round_trip",
    "PyECLOUD.C107_nodes_partial",
    "PyECLOUD.C107_axes_violated"
   ],
   "note": "The last sentence needs axes of constant positive step (C107_nodes_partial); a file with other axes is accepted and interpolated wrongly (C107_axes_violated). Reading and writing of .mat files is the identity in the model."
  },
  {
   "property": "C108",
   "status": "partial",
   "theorems": [
    "PyECLOUD.C108_energy",
    "PyECLOUD.C108_record_violated"
   ],
   "note": "The first sentence is proved (C108_energy). The second is false: U_sc_eV_stp is set to 0 at construction and never again, so every entry is 0 (C108_record_violated)."
  },
  {
   "property": "C109",
   "status": "proved",
   "theorems": [
    "PyECLOUD.C109_cloud",
    "PyECLOUD.C109_stages"
   ],
   "note": "The model of the step is the list of operations; C109 compares it with a separate description of the duties of one cloud (StepIn.duties, Spec/SimStep). That each operation does what it should is C89/C90 and the properties of the sources."
  },
  {
   "property": "C110",
   "status": "partial",
   "theorems": [
    "PyECLOUD.C110_gaussian",
    "PyECLOUD.C110_rectangular_partial",
    "PyECLOUD.C110_monoenergetic",
    "PyECLOUD.C110_negative_violated",
    "PyECLOUD.C110_lorentz",
    "PyECLOUD.C110_lognormal",
    "PyECLOUD.C110_choice",
    "PyECLOUD.C110_energies_partial"
   ],
   "note": "Rectangular distributions wider than twice their mean give negative energies (C110_negative_violated), for which the velocity is the square root of a negative number."
  },
  {
   "property": "C111",
   "status": "partial",
   "theorems": [
    "PyECLOUD.C111_result",
    "PyECLOUD.C111_completes",
    "PyECLOUD.C111_order",
    "PyECLOUD.C111_one_process",
    "PyECLOUD.C111_unequal_settings_violated"
   ],
   "note": "Small-step semantics with one message queue per process in each direction; invariant over all executions, progress and a decreasing measure. Violated when the processes have different settings (nothing compares them): C111_unequal_settings_violated reaches a state where one process waits for ever. The MPI library (ordered, lossless messages) is external."
  },
  {
   "property": "C112",
   "status": "partial",
   "theorems": [
    "PyECLOUD.C112_mean",
    "PyECLOUD.C112_field",
    "PyECLOUD.C112_same_field",
    "PyECLOUD.C112_mean_field",
    "PyECLOUD.C112_electromagnetic_violated"
   ],
   "note": "The buffer arithmetic (Gather, reshape, mean over axis 0) is modelled entry by entry. Violated with electromagnetic tracking, where the communicator is ignored (C112_electromagnetic_violated)."
  },
  {
   "property": "C113",
   "status": "partial",
   "theorems": [
    "PyECLOUD.C113_cloud_densities_partial",
    "PyECLOUD.C113_last_cloud_violated"
   ],
   "note": "Holds for every cloud but the last and for the sum; the last cloud gets mean minus own other clouds, which is its own density exactly if the mean equals the own total (C113_cloud_densities_partial). Violated for two processes with electrons and ions."
  },
  {
   "property": "C114",
   "status": "partial",
   "theorems": [
    "PyECLOUD.C114_binding",
    "PyECLOUD.C114_binding_values",
    "PyECLOUD.C114_cloud_settings_partial",
    "PyECLOUD.C114_ignored_violated",
    "PyECLOUD.C114_main_cloud",
    "PyECLOUD.C114_every_setting",
    "PyECLOUD.C114_t_ON_regen_low_violated",
    "PyECLOUD.C114_trackers"
   ],
   "note": "The calls of init.py and the signatures are transcribed and bound by the argument rules of Python; the table of governed parameters comes from the names only. Eight parameters do not follow the cloud (C114_ignored_violated) and t_ON_regen_low is never used (C114_t_ON_regen_low_violated)."
  },
  {
   "property": "C115",
   "status": "proved",
   "theorems": [
    "PyECLOUD.C115_beams",
    "PyECLOUD.C115_space_charge"
   ],
   "note": "Argument binding only; what the constructors do with the values is covered by the properties of the beam and of the space charge."
  },
  {
   "property": "C116",
   "status": "proved",
   "theorems": [
    "PyECLOUD.C116_constructed",
    "PyECLOUD.C116_clouds_found",
    "PyECLOUD.C116_refused"
   ],
   "note": "The process object is threaded through the extraction, so 'the extraction uses up no target' is a theorem about generate with flag_generate=False. Files are the arrays they hold; printing is not modelled."
  },
  {
   "property": "C117",
   "status": "proved",
   "theorems": [
    "PyECLOUD.C117_extracted",
    "PyECLOUD.C117_all_energies"
   ],
   "note": "Exact arithmetic; the speed at the test energy is assumed to be the exact square root."
  },
  {
   "property": "C118",
   "status": "partial",
   "theorems": [
    "PyECLOUD.C118_interactions_partial",
    "PyECLOUD.C118_interactions_violated",
    "PyECLOUD.C118_checkpoint_number",
    "PyECLOUD.C118_resume",
    "PyECLOUD.C118_restart_partial",
    "PyECLOUD.C118_restart_violated",
    "PyECLOUD.C118_extracted"
   ],
   "note": "Violated: names that contain '.mat' or '__iter' inside lose everything behind it, so two e-clouds with different names write the same files (C118_interactions_violated); a restart name without 'Pyecltest' is appended to the old name (C118_restart_violated). Python's int() is modelled on digit strings only."
  },
  {
   "property": "C119",
   "status": "partial",
   "theorems": [
    "PyECLOUD.C119_movies_partial",
    "PyECLOUD.C119_cloud_movies_violated",
    "PyECLOUD.C119_cloud_movies_default"
   ],
   "note": "Proved for the movies of the total charge and the field and, with the default folder, for the movies of single clouds. Violated for the movies of single clouds in any folder given by the user: the directory looked for and the one made differ by a slash, so the second time step fails with FileExistsError. Paths are compared by their components ('..' and links are not resolved)."
  },
  {
   "property": "C120",
   "status": "partial",
   "theorems": [
    "PyECLOUD.C120_kept_partial",
    "PyECLOUD.C120_lost_violated",
    "PyECLOUD.C120_every_parameter"
   ],
   "note": "Proved for 29 parameters (C120_kept_partial). Violated for 13, which fall back to defaults: save_only, save_mat_every, custom observables, lifetime histograms, checkpoints, copies of the output, electric energy. C120_every_parameter shows that the two lists are complete."
  },
  {
   "property": "C121",
   "status": "partial",
   "theorems": [
    "PyECLOUD.C121_construction",
    "PyECLOUD.C121_interchangeable_partial",
    "PyECLOUD.C121_influence_violated",
    "PyECLOUD.C121_output_violated",
    "PyECLOUD.C121_others"
   ],
   "note": "Proved: arguments of the twin; interchangeability (which e-cloud a bunch meets and what it did before has no influence, only the field left in the solver). Violated: the first motion takes place in the field left by the other e-cloud, and both write to the same output files."
  },
  {
   "property": "C122",
   "status": "partial",
   "theorems": [
    "PyECLOUD.C122_recorded_partial",
    "PyECLOUD.C122_names",
    "PyECLOUD.C122_built",
    "PyECLOUD.C122_replaced_violated",
    "PyECLOUD.C122_energies_violated"
   ],
   "note": "Violated: an observable with the name of a recorded quantity silently replaces it (C122_replaced_violated); the energies of the extracted yield are filed with an extra axis because of a trailing comma (C122_energies_violated). Values are opaque; np.array and the tuple are uninterpreted functions."
  },
  {
   "property": "C123",
   "status": "proved",
   "theorems": [
    "PyECLOUD.C123_save_only"
   ],
   "note": "The failure happens at the first save, not when the simulation is set up."
  },
  {
   "property": "C124",
   "status": "partial",
   "theorems": [
    "PyECLOUD.C124_search",
    "PyECLOUD.C124_secondary_partial",
    "PyECLOUD.C124_secondary_violated",
    "PyECLOUD.C124_surface_partial",
    "PyECLOUD.C124_surface_refused",
    "PyECLOUD.C124_surface_violated"
   ],
   "note": "Violated: for secondary beams the .mat test is made on the primary beam's file name (C124_secondary_violated); a surface file that is found only in the package's folder is never loaded because the name as given is opened (C124_surface_violated). loadmat's own handling of .mat is taken as given."
  },
  {
   "property": "C125",
   "status": "partial",
   "theorems": [
    "PyECLOUD.C125_beam_file_partial",
    "PyECLOUD.C125_machine_violated"
   ],
   "note": "Violated: machine (and surface) files named by keyword are accepted but not read (C125_machine_violated); the beam file is (C125_beam_file_partial)."
  },
  {
   "property": "C126",
   "status": "proved",
   "theorems": [
    "PyECLOUD.C126_setup_iff",
    "PyECLOUD.C126_kind"
   ],
   "note": "The checks on the geometry itself are C70."
  },
  {
   "property": "C127",
   "status": "partial",
   "theorems": [
    "PyECLOUD.C127_built_iff",
    "PyECLOUD.C127_refused",
    "PyECLOUD.C127_given",
    "PyECLOUD.C127_restrictions",
    "PyECLOUD.C127_em_step_violated",
    "PyECLOUD.C127_em_step_partial"
   ],
   "note": "Violated: electromagnetic space charge without Dt_sc is accepted, but the field cannot be evaluated after the first recomputation (C127_em_step_violated). The solvers themselves (PyPIC) are an external package."
  },
  {
   "property": "C128",
   "status": "proved",
   "theorems": [
    "PyECLOUD.C128_recorded",
    "PyECLOUD.C128_passive",
    "PyECLOUD.C128_index"
   ],
   "note": "The values are those of an arbitrary function of cloud, field and beam field."
  },
  {
   "property": "C129",
   "status": "partial",
   "theorems": [
    "PyECLOUD.C129_beam_partial",
    "PyECLOUD.C129_stale_violated"
   ],
   "note": "Violated: for a slice without particles, or one that does not interact, the beam of the slice tracked before is recorded (C129_stale_violated)."
  },
  {
   "property": "C130",
   "status": "partial",
   "theorems": [
    "PyECLOUD.C130_passive",
    "PyECLOUD.C130_needed",
    "PyECLOUD.C130_train_partial",
    "PyECLOUD.C130_lost_violated",
    "PyECLOUD.C130_probes_violated"
   ],
   "note": "Violated: the call that puts the records of a train in order also empties them (C130_lost_violated); probes given at construction make the first slice fail, also the first slice of a train, which re-initialises (C130_probes_violated). Without re-initialisation tracking fails (C130_needed), as documented."
  },
  {
   "property": "C131",
   "status": "partial",
   "theorems": [
    "PyECLOUD.C131_once_partial",
    "PyECLOUD.C131_second_violated"
   ],
   "note": "Violated for an e-cloud that has already tracked: the bunch is skipped; the call raises, or freezes an older field (C131_second_violated)."
  },
  {
   "property": "C132",
   "status": "proved",
   "theorems": [
    "PyECLOUD.C132_built_iff",
    "PyECLOUD.C132_settings"
   ],
   "note": "The construction of the build-up simulation itself is the subject of C57, C114-C117, C124-C127."
  },
  {
   "property": "C133",
   "status": "partial",
   "theorems": [
    "PyECLOUD.C133_line_density",
    "PyECLOUD.C133_gas_partial",
    "PyECLOUD.C133_gas_violated"
   ],
   "note": "Violated for beta < 1: the slice lasts dz/(beta c), but the ionisation rate uses c, so that the number is too large by 1/beta (C133_gas_partial gives the exact factor, C133_gas_violated)."
  },
  {
   "property": "C134",
   "status": "partial",
   "theorems": [
    "PyECLOUD.C134_built_iff",
    "PyECLOUD.C134_density_partial",
    "PyECLOUD.C134_own_lengths",
    "PyECLOUD.C134_integer_violated",
    "PyECLOUD.C134_single_violated"
   ],
   "note": "Violated: intensities stored as integers truncate the configured bunch length, so that below one metre the beam has no bunches (C134_integer_violated); a file with one bunch is refused (C134_single_violated)."
  },
  {
   "property": "C135",
   "status": "partial",
   "theorems": [
    "PyECLOUD.C135_nodes_partial",
    "PyECLOUD.C135_outside",
    "PyECLOUD.C135_axes_violated"
   ],
   "note": "Partial: the axes of the file are taken to have constant steps without a check (C135_axes_violated). Between the nodes the interpolation of C22 applies."
  },
  {
   "property": "C136",
   "status": "partial",
   "theorems": [
    "PyECLOUD.C136_true_density",
    "PyECLOUD.C136_average",
    "PyECLOUD.C136_backscattered_partial",
    "PyECLOUD.C136_rediffused_partial",
    "PyECLOUD.C136_true",
    "PyECLOUD.C136_poisson",
    "PyECLOUD.C136_binomial_violated",
    "PyECLOUD.C136_rediffused_default_violated",
    "PyECLOUD.C136_backscattered_default_violated"
   ],
   "note": "Violated: for the binomial choice the probabilities lack the binomial coefficient (C136_binomial_violated); the distribution functions called without their last argument ignore the parameters of the model (C136_rediffused_default_violated, C136_backscattered_default_violated)."
  },
  {
   "property": "C137",
   "status": "partial",
   "theorems": [
    "PyECLOUD.C137_outside",
    "PyECLOUD.C137_first_exit",
    "PyECLOUD.C137_robust",
    "PyECLOUD.C137_agree_partial",
    "PyECLOUD.C137_end_on_wall_violated",
    "PyECLOUD.C137_corner_violated",
    "PyECLOUD.C137_orientation_violated"
   ],
   "note": "Violated where the end lies exactly on a wall (the compiled class finds nothing, C137_end_on_wall_violated) and where the exit point is a corner (different normals, C137_corner_violated); the constructor without compiled code accepts clockwise polygons (C137_orientation_violated)."
  },
  {
   "property": "C138",
   "status": "partial",
   "theorems": [
    "PyECLOUD.C138_concat",
    "PyECLOUD.C138_missing_files",
    "PyECLOUD.C138_first_file_violated",
    "PyECLOUD.C138_incomplete_file_violated",
    "PyECLOUD.C138_transposed",
    "PyECLOUD.C138_h5_roundtrip",
    "PyECLOUD.C138_mat_roundtrip_partial",
    "PyECLOUD.C138_mat_unsqueezed",
    "PyECLOUD.C138_mat_roundtrip_violated"
   ],
   "note": "Violated: the first file is not skipped (C138_first_file_violated), nor are files without the group or a data set (C138_incomplete_file_violated); dimensions of length one are lost in .mat files (C138_mat_roundtrip_violated)."
  },
  {
   "property": "C139",
   "status": "proved",
   "theorems": [
    "PyECLOUD.C139_kick",
    "PyECLOUD.C139_idle",
    "PyECLOUD.C139_bunch",
    "PyECLOUD.C139_slices",
    "PyECLOUD.C139_once"
   ],
   "note": ""
  },
  {
   "property": "C140",
   "status": "proved",
   "theorems": [
    "PyECLOUD.C140_unobserved",
    "PyECLOUD.C140_savers",
    "PyECLOUD.C140_invariant",
    "PyECLOUD.C140_observed"
   ],
   "note": ""
  },
  {
   "property": "C141",
   "status": "proved",
   "theorems": [
    "PyECLOUD.C141_nothing_lost",
    "PyECLOUD.C141_wall"
   ],
   "note": ""
  },
  {
   "property": "C142",
   "status": "proved",
   "theorems": [
    "PyECLOUD.C142_samples",
    "PyECLOUD.C142_totals",
    "PyECLOUD.C142_histograms",
    "PyECLOUD.C142_observed"
   ],
   "note": ""
  },
  {
   "property": "C143",
   "status": "proved",
   "theorems": [
    "PyECLOUD.C143_balance"
   ],
   "note": ""
  },
  {
   "property": "C144",
   "status": "proved",
   "theorems": [
    "PyECLOUD.C144_alone",
    "PyECLOUD.C144_runs",
    "PyECLOUD.C144_others"
   ],
   "note": "The field each macroparticle feels is part of the given motion; the field is where the clouds meet (C145)."
  },
  {
   "property": "C145",
   "status": "proved",
   "theorems": [
    "PyECLOUD.C145_clouds",
    "PyECLOUD.C145_turn",
    "PyECLOUD.C145_density",
    "PyECLOUD.C145_grid_charge"
   ],
   "note": "The solver is an arbitrary function of the density; electrostatic mode, one process."
  },
  {
   "property": "C146",
   "status": "proved",
   "theorems": [
    "PyECLOUD.C146_order"
   ],
   "note": "In exact arithmetic: the sum of the densities is commutative."
  },
  {
   "property": "C147",
   "status": "partial",
   "theorems": [
    "PyECLOUD.C147_checks",
    "PyECLOUD.C147_within_radius_partial",
    "PyECLOUD.C147_between_samples_violated",
    "PyECLOUD.C147_file_unchecked_violated",
    "PyECLOUD.C147_source"
   ],
   "note": "Holds whenever the chamber is within the radius; false in general, as the circles are only sampled and the variant from a file checks nothing. The two exception classes are not distinguished."
  },
  {
   "property": "C148",
   "status": "partial",
   "theorems": [
    "PyECLOUD.C148_own_partial",
    "PyECLOUD.C148_first",
    "PyECLOUD.C148_single",
    "PyECLOUD.C148_own_violated"
   ],
   "note": "False for columns in double precision (the usual case of a chamber file): np.float64 of such an array is the array itself, so the first cloud overwrites the negative values in the chamber and all later clouds use its parameters. C148_own_partial is an exact condition, C148_first says which values are used instead. That np.float64 does not copy is part of the trusted reading of numpy."
  },
  {
   "property": "C149",
   "status": "proved",
   "theorems": [
    "PyECLOUD.C149_copy_recent",
    "PyECLOUD.C149_pacing"
   ],
   "note": "C149_copy_recent gives the contents of the main output and of the copy after any number of passages of a run that ends without a file error; C149_pacing gives the schedule."
  },
  {
   "property": "C150",
   "status": "proved",
   "theorems": [
    "PyECLOUD.C150_boris_same_motion",
    "PyECLOUD.C150_dipole_motion",
    "PyECLOUD.C150_strong_motion"
   ],
   "note": "Combines C61, C39 and C60 with the loop over sub-steps. For the Boris trackers the magnetic field of the clouds is the same at all macroparticles, because only one of the two knows such fields."
  },
  {
   "property": "C151",
   "status": "partial",
   "theorems": [
    "PyECLOUD.C151_recorded",
    "PyECLOUD.C151_own_partial",
    "PyECLOUD.C151_violated",
    "PyECLOUD.C151_violated_photo"
   ],
   "note": "C151_recorded gives what is recorded in any run: the accumulated number of hits of all clouds and of photoelectrons generated from photon directions. C151_violated and C151_violated_photo are the witnesses against the property, C151_own_partial is the case of one cloud without such photoelectrons."
  },
  {
   "property": "C152",
   "status": "proved",
   "theorems": [
    "PyECLOUD.C152_scaling",
    "PyECLOUD.C152_init",
    "PyECLOUD.C152_uniform",
    "PyECLOUD.C152_absorber",
    "PyECLOUD.C152_ecloud",
    "PyECLOUD.C152_furman_pivi"
   ],
   "note": "C152_scaling is the run; C152_absorber, C152_ecloud and C152_furman_pivi show that the emission models are of the kind required; C152_init and C152_uniform treat the initial cloud."
  },
  {
   "property": "C153",
   "status": "partial",
   "theorems": [
    "PyECLOUD.C153_difference",
    "PyECLOUD.C153_continues_partial",
    "PyECLOUD.C153_no_cross",
    "PyECLOUD.C153_number",
    "PyECLOUD.C153_undisturbed",
    "PyECLOUD.C153_written",
    "PyECLOUD.C153_violated"
   ],
   "note": "Proved that saving leaves everything in place, that the two runs differ by the cleaning and the regenerations of the step of the saving only, and that they agree if these had nothing to do, provided the cross ionisation is in the saved state. Violated otherwise: the cross ionisation (target densities and counters) is not in the file, C153_violated; the skipped maintenance is C76_violated."
  },
  {
   "property": "C154",
   "status": "partial",
   "theorems": [
    "PyECLOUD.C154_energy_partial",
    "PyECLOUD.C154_checkpoints",
    "PyECLOUD.C154_files",
    "PyECLOUD.C154_violated_steps",
    "PyECLOUD.C154_violated_life",
    "PyECLOUD.C154_violated_snap",
    "PyECLOUD.C154_violated_sim",
    "PyECLOUD.C154_violated",
    "PyECLOUD.C154_violated_energy"
   ],
   "note": "Proved for checkpoints (C154_checkpoints) and for the energy histograms of clouds with the interval of the last cloud (C154_energy_partial). Violated for the others: step-by-step samples, lifetime histograms, macroparticle and simulation state files (C154_violated_steps, _life, _snap, _sim say what happens after every restart; C154_violated is a whole run), and the energy histograms of a cloud with another interval (C154_violated_energy)."
  },
  {
   "property": "C155",
   "status": "partial",
   "theorems": [
    "PyECLOUD.C155_times_partial",
    "PyECLOUD.C155_off",
    "PyECLOUD.C155_violated",
    "PyECLOUD.C155_violated_number",
    "PyECLOUD.C155_interval_partial",
    "PyECLOUD.C155_violated_interval"
   ],
   "note": "Proved for two or more times in a list or file, one time in a list (C155_times_partial), None and -1 (C155_off) and non-negative intervals (C155_interval_partial). Violated: a file with one time saves no macroparticle state silently and ends the program for simulation states, an empty list ends it for macroparticle states (C155_violated); -1. as a float makes a checkpoint at every passage (C155_violated_interval)."
  },
  {
   "property": "C156",
   "status": "partial",
   "theorems": [
    "PyECLOUD.C156_mirror_partial",
    "PyECLOUD.C156_fields_partial",
    "PyECLOUD.C156_density",
    "PyECLOUD.C156_gather",
    "PyECLOUD.C156_boris",
    "PyECLOUD.C156_boris_tracker",
    "PyECLOUD.C156_magnets",
    "PyECLOUD.C156_ecloud",
    "PyECLOUD.C156_angles",
    "PyECLOUD.C156_dipole",
    "PyECLOUD.C156_strong",
    "PyECLOUD.C156_ellipse_partial",
    "PyECLOUD.C156_centre_violated"
   ],
   "note": "Proved for whole simulations with given motion (C156_mirror_partial) and with the fields of beams and clouds (C156_fields_partial), for densities and interpolation on symmetric grids (C156_density, C156_gather), the Boris, dipole and strong-field trackers, the ECLOUD emission, the emission angles and the elliptical chamber off its centre (C156_ellipse_partial). Missing: full regenerations, whose cells are half-open, cross ionisation, and the exact centre of the ellipse, where the normal is a fixed direction (C156_centre_violated)."
  },
  {
   "property": "C157",
   "status": "proved",
   "theorems": [
    "PyECLOUD.C157_emitted"
   ],
   "note": ""
  },
  {
   "property": "C158",
   "status": "partial",
   "theorems": [
    "PyECLOUD.C158_reorder",
    "PyECLOUD.C158_divide",
    "PyECLOUD.C158_totals",
    "PyECLOUD.C158_motion",
    "PyECLOUD.C158_boris",
    "PyECLOUD.C158_dipole",
    "PyECLOUD.C158_strong",
    "PyECLOUD.C158_density",
    "PyECLOUD.C158_absorber",
    "PyECLOUD.C158_ecloud",
    "PyECLOUD.C158_run_partial",
    "PyECLOUD.C158_cleaning_violated"
   ],
   "note": "proved for the coupled simulation without cleaning, regeneration and cross ionisation, for emission models that are functions of the impact (with random velocities and random choice of elastic events the claim holds in distribution only, which is not formalised), while there is room in the arrays; cleaning looks at single macroparticles and does violate the claim (C158_cleaning_violated)"
  },
  {
   "property": "C159",
   "status": "partial",
   "theorems": [
    "PyECLOUD.C159_disjoint_partial",
    "PyECLOUD.C159_processes",
    "PyECLOUD.C159_bounded",
    "PyECLOUD.C159_wrong_file_violated",
    "PyECLOUD.C159_nested_violated"
   ],
   "note": "proved for any number of processes and, within one process, for calls that do not overlap; overlapping calls of one process (threads, or an input file that reads another one) share the directory: one fails or gets the file of the other (C159_wrong_file_violated, C159_nested_violated)"
  },
  {
   "property": "C160",
   "status": "proved",
   "theorems": [
    "PyECLOUD.C160_cosine_3D",
    "PyECLOUD.C160_cosine_2D",
    "PyECLOUD.C160_mean_3D",
    "PyECLOUD.C160_normal"
   ],
   "note": "probability as Lebesgue measure of the draws in the unit square; independence of successive random numbers is the assumption on the generator"
  },
  {
   "property": "C161",
   "status": "partial",
   "theorems": [
    "PyECLOUD.C161_reversible",
    "PyECLOUD.C161_boris",
    "PyECLOUD.C161_uniform",
    "PyECLOUD.C161_fields",
    "PyECLOUD.C161_cloud",
    "PyECLOUD.C161_cloud_multipole",
    "PyECLOUD.C161_frozen_violated",
    "PyECLOUD.C161_frozen_cloud_violated",
    "PyECLOUD.C161_strong_partial",
    "PyECLOUD.C161_dipole_violated"
   ],
   "note": "partial: with several sub-steps and no new interpolation the electric field of the first position is used for all of them, and the trackers for strong fields use the field of the starting position; volumes are then not kept in non-uniform fields (violated theorems). Real numbers, no rounding."
  },
  {
   "property": "C162",
   "status": "proved",
   "theorems": [
    "PyECLOUD.C162_energies",
    "PyECLOUD.C162_energies_cut",
    "PyECLOUD.C162_low",
    "PyECLOUD.C162_energies_end",
    "PyECLOUD.C162_gaussian",
    "PyECLOUD.C162_uniform",
    "PyECLOUD.C162_gas",
    "PyECLOUD.C162_ellipse",
    "PyECLOUD.C162_polygon"
   ],
   "note": "the successive random numbers are taken to be independent with the law named in the code (that is the assumption on the generator); the draws of an entry are indexed by entry and repetition instead of by the order in the masked array, which has the same law. Real numbers, no rounding."
  },
  {
   "property": "C163",
   "status": "proved",
   "theorems": [
    "PyECLOUD.C163_boris",
    "PyECLOUD.C163_motion",
    "PyECLOUD.C163_fields",
    "PyECLOUD.C163_cloud",
    "PyECLOUD.C163_cloud_multipole",
    "PyECLOUD.C163_first_order"
   ],
   "note": "uniform time step without instantaneous kicks, between impacts on the wall; the orbit and the fields are real functions given from outside (F, Bm), so that the theorem is about the tracker and not about the field solver. Real numbers, no rounding."
  },
  {
   "property": "C164",
   "status": "proved",
   "theorems": [
    "PyECLOUD.C164_dipole",
    "PyECLOUD.C164_strong",
    "PyECLOUD.C164_threshold",
    "PyECLOUD.C164_cloud_dipole",
    "PyECLOUD.C164_cloud_strong"
   ],
   "note": "uniform time step without instantaneous kicks, between impacts on the wall; the orbit and the electric fields are real functions given from outside. Real numbers, no rounding."
  },
  {
   "property": "C165",
   "status": "partial",
   "theorems": [
    "PyECLOUD.C165_files",
    "PyECLOUD.C165_passages",
    "PyECLOUD.C165_start_partial",
    "PyECLOUD.C165_start_violated"
   ],
   "note": "violated for clouds that share a log file: every saver opens its log for writing from scratch, so that the lines of the clouds before it are lost (C165_start_violated); with own log files it holds (C165_start_partial), and the part about the run holds for all files (C165_files, C165_passages). Dates and the rounding of the progress number are not modelled."
  },
  {
   "property": "C166",
   "status": "proved",
   "theorems": [
    "PyECLOUD.C166_growth",
    "PyECLOUD.C166_decay",
    "PyECLOUD.C166_ecloud",
    "PyECLOUD.C166_absorber",
    "PyECLOUD.C166_furman_pivi",
    "PyECLOUD.C166_physical",
    "PyECLOUD.C166_models",
    "PyECLOUD.C166_no_multipacting"
   ],
   "note": "the full regeneration, which can add up to one reference size per occupied cell (C12), is assumed not to be due"
  },
  {
   "property": "C167",
   "status": "partial",
   "theorems": [
    "PyECLOUD.C167_law",
    "PyECLOUD.C167_work",
    "PyECLOUD.C167_work_multipole",
    "PyECLOUD.C167_momentum",
    "PyECLOUD.C167_energy",
    "PyECLOUD.C167_drift",
    "PyECLOUD.C167_oscillation",
    "PyECLOUD.C167_heating_violated"
   ],
   "note": "proved for the field evaluated at every sub-step and for uniform fields; with the default setting, which keeps the field during the sub-steps, a bound electron is heated without limit (C167_heating_violated)"
  },
  {
   "property": "C168",
   "status": "partial",
   "theorems": [
    "PyECLOUD.C168_full_cells",
    "PyECLOUD.C168_full_unbiased",
    "PyECLOUD.C168_soft_unbiased_partial",
    "PyECLOUD.C168_soft_violated"
   ],
   "note": "full regeneration proved if no axis has a multiple of 4 cells; soft regeneration proved for equal sizes; for unequal sizes it favours small macroparticles (C168_soft_violated)"
  },
  {
   "property": "C169",
   "status": "proved",
   "theorems": [
    "PyECLOUD.C169_regen_succeeds"
   ],
   "note": "proved if no axis has a multiple of 4 cells"
  },
  {
   "property": "C170",
   "status": "proved",
   "theorems": [
    "PyECLOUD.C170_soft",
    "PyECLOUD.C170_full"
   ],
   "note": "Random numbers are independent and uniform; for the full regeneration the runs are those that go through (C169 says when they do). ZeroTail: no charge in dead slots (C10)."
  },
  {
   "property": "C171",
   "status": "proved",
   "theorems": [
    "PyECLOUD.C171_recorded",
    "PyECLOUD.C171_movies",
    "PyECLOUD.C171_values",
    "PyECLOUD.C171_movie_overwritten"
   ],
   "note": "Arrays as objects in memory with names, in-place writes and references; refinement to a diary of values."
  },
  {
   "property": "C172",
   "status": "proved",
   "theorems": [
    "PyECLOUD.C172_far"
   ],
   "note": "Loop 30 as continued fraction of the moments of exp(-u^2-2us); error divided by the denominator at each level; path of integration turned by 45 degrees beside the imaginary axis. Inside the rectangle the accuracy is not shown."
  },
  {
   "property": "C173",
   "status": "proved",
   "theorems": [
    "PyECLOUD.C173_almost_round",
    "PyECLOUD.C173_far"
   ],
   "note": "Exact arithmetic. The remaining 1e-14 comes from the constant CC of the routine, which has 15 digits. With equal sizes the function gives nan (C84)."
  },
  {
   "property": "C174",
   "status": "proved",
   "theorems": [
    "PyECLOUD.C174_wide",
    "PyECLOUD.C174_tall",
    "PyECLOUD.C174_exists"
   ],
   "note": "Exact arithmetic. The normalisation is for a unit charge per metre. Points inside the core, where the routine takes a Taylor expansion, are covered by the symmetry, sign and totality statements only."
  },
  {
   "property": "C175",
   "status": "proved",
   "theorems": [
    "PyECLOUD.C175_tables",
    "PyECLOUD.C175_narrow"
   ],
   "note": "np.polyfit is modelled by its result, the least squares line. Exact arithmetic."
  },
  {
   "property": "C176",
   "status": "proved",
   "theorems": [
    "PyECLOUD.C176_angles",
    "PyECLOUD.C176_probability"
   ],
   "note": "Exact arithmetic; random numbers of the mathematical uniform distribution. The plots of the script are not modelled."
  },
  {
   "property": "C177",
   "status": "proved",
   "theorems": [
    "PyECLOUD.C177_intensity",
    "PyECLOUD.C177_ions",
    "PyECLOUD.C177_error",
    "PyECLOUD.C177_photoelectrons",
    "PyECLOUD.C177_continuous"
   ],
   "note": "Exact arithmetic. The number of macroparticles generated per step is rounded at random (C45, C67)."
  },
  {
   "property": "C178",
   "status": "proved",
   "theorems": [
    "PyECLOUD.C178_field",
    "PyECLOUD.C178_beam",
    "PyECLOUD.C178_magnet",
    "PyECLOUD.C178_yield",
    "PyECLOUD.C178_cross_section",
    "PyECLOUD.C178_sharp"
   ],
   "note": "Exact arithmetic. Axes of constant step (C107, C135), yield tables whose step is a whole number of meV (C29), cross section tables with a step of whole 1e-8 eV (C68)."
  },
  {
   "property": "C179",
   "status": "proved",
   "theorems": [
    "PyECLOUD.C179_pair",
    "PyECLOUD.C179_self",
    "PyECLOUD.C179_alone",
    "PyECLOUD.C179_beam"
   ],
   "note": "Exact arithmetic. The Poisson solver is not in the repository (PyPIC); its reciprocity is a hypothesis, shown to hold for the field of charges in free space. With conducting walls the walls take part of the momentum."
  },
  {
   "property": "C180",
   "status": "partial",
   "theorems": [
    "PyECLOUD.C180_times",
    "PyECLOUD.C180_increasing_partial",
    "PyECLOUD.C180_overlap_violated",
    "PyECLOUD.C180_values",
    "PyECLOUD.C180_charge_partial",
    "PyECLOUD.C180_intensity_partial"
   ],
   "note": "Exact arithmetic, refine_fact a whole number. The code violates the increase of the times when the window reaches into the next slot: C180_overlap_violated."
  },
  {
   "property": "C181",
   "status": "proved",
   "theorems": [
    "PyECLOUD.C181_parts",
    "PyECLOUD.C181_refused",
    "PyECLOUD.C181_linear"
   ],
   "note": "Exact arithmetic. np.polyfit is represented by its result, the least squares line. The assignment Ey_lin[ss, ix :] writes all rows from ix on; it is modelled as such, the result is the one intended."
  },
  {
   "property": "C182",
   "status": "proved",
   "theorems": [
    "PyECLOUD.C182_table",
    "PyECLOUD.C182_fine_tables"
   ],
   "note": "Real arithmetic. The script itself passes an argument that the constructor no longer has; what is proved concerns the table it makes."
  },
  {
   "property": "C183",
   "status": "proved",
   "theorems": [
    "PyECLOUD.C183_point",
    "PyECLOUD.C183_curves",
    "PyECLOUD.C183_distribution"
   ],
   "note": "For runs of the extraction that end without an exception. The link to the yields is through the draws; the mean number of true secondaries is C92."
  },
  {
   "property": "C184",
   "status": "proved",
   "theorems": [
    "PyECLOUD.C184_law",
    "PyECLOUD.C184_empty",
    "PyECLOUD.C184_size",
    "PyECLOUD.C184_moved",
    "PyECLOUD.C184_none",
    "PyECLOUD.C184_accepted"
   ],
   "note": "C184_law is the law of one candidate, C184_accepted that of all new macroparticles after the rejection of positions outside the chamber (as C162); real arithmetic, independent draws."
  },
  {
   "property": "C185",
   "status": "proved",
   "theorems": [
    "PyECLOUD.C185_ecloud",
    "PyECLOUD.C185_accurate",
    "PyECLOUD.C185_cosine",
    "PyECLOUD.C185_table",
    "PyECLOUD.C185_curve"
   ],
   "note": "The flat low energy model is left out: its elastic yield is lost by aliasing (C26)."
  },
  {
   "property": "C186",
   "status": "proved",
   "theorems": [
    "PyECLOUD.C186_main",
    "PyECLOUD.C186_cloud",
    "PyECLOUD.C186_beam"
   ],
   "note": "The names read are transcribed from the source text, whether or not a given run reaches the line."
  },
  {
   "property": "C187",
   "status": "partial",
   "theorems": [
    "PyECLOUD.C187_beam",
    "PyECLOUD.C187_cloud_partial",
    "PyECLOUD.C187_ignored",
    "PyECLOUD.C187_violated",
    "PyECLOUD.C187_regen_time"
   ],
   "note": "Holds for beam files. Fails for seven parameters of a cloud file, and for t_ON_regen_low everywhere; proved for all others."
  },
  {
   "property": "C188",
   "status": "proved",
   "theorems": [
    "PyECLOUD.C188_primaries",
    "PyECLOUD.C188_long_run"
   ],
   "note": "For the calls between two regenerations: the reference size is constant."
  },
  {
   "property": "C189",
   "status": "proved",
   "theorems": [
    "PyECLOUD.C189_separate",
    "PyECLOUD.C189_equally"
   ],
   "note": "Average over the rounding numbers of one product (shared ones with equal generation); the other random numbers are arbitrary."
  },
  {
   "property": "C190",
   "status": "proved",
   "theorems": [
    "PyECLOUD.C190_only",
    "PyECLOUD.C190_none"
   ],
   "note": ""
  }
 ]
}